/-
What icon and cursor files look like, and which numbers are free: independent of the readers and writers.
-/
import Verif.Spec.ResourceManager
import Verif.Model.Icons

namespace PE

/-! ### Numbers -/

/-- A resource of type `t` has the number `x`. -/
def ResDir.Used (r : ResDir) (t : ResKey) (x : Nat) : Prop := ∃ d, r.sub [t] = some d ∧ ResKey.id x ∈ d.es.map ResEntry.key

/-- The numbers from 1 to 65535 that are not in `used`, ascending. -/
def freeNumbers (used : List Nat) : List Nat := (List.range' 1 65535).filter (fun x => !used.contains x)

/-- The numbers of the resources of type `t`. -/
def ResDir.numbers (r : ResDir) (t : ResKey) : List Nat :=
  match r.sub [t] with
  | some d => d.es.filterMap (fun e => match e.key with | .id n => some n | .name _ => none)
  | none => []

/-- There is room for `n` more resources of type `t`: enough free numbers (mode `free`), or enough numbers behind the last one. All present
    numbers fit in 16 bits. -/
def ResDir.Room (r : ResDir) (t : ResKey) (free : Bool) (n : Nat) : Prop :=
  (r.sub [t] = none → n ≤ 65534) ∧ (∀ x, r.Used t x → x < 65536) ∧
    if free then n ≤ (freeNumbers (r.numbers t)).length else ∀ x, r.Used t x → x + n ≤ 65535

/-! ### Files -/

/-- An icon or cursor file with the headers of its images inside of the file, and the images behind all headers. -/
structure IcoFile (f : Bytes) : Prop where
  long : 6 ≤ f.length
  some : rd 2 f 4 ≠ 0
  headers : 6 + 16 * rd 2 f 4 ≤ f.length
  size : ∀ i, i < rd 2 f 4 → rd 4 f (6 + 16 * i + 8) ≠ 0
  behind : ∀ i, i < rd 2 f 4 → 6 + 16 * rd 2 f 4 ≤ rd 4 f (6 + 16 * i + 12)
  fits : ∀ i, i < rd 2 f 4 → rd 4 f (6 + 16 * i + 12) + rd 4 f (6 + 16 * i + 8) ≤ f.length
  small : ∀ i, i < rd 2 f 4 → rd 4 f (6 + 16 * i + 12) + rd 4 f (6 + 16 * i + 8) < 2 ^ 32

/-- The images of a file: the 12 bytes that describe the image (the last four are its size), and the image. -/
def icoImages (f : Bytes) : List (Bytes × Bytes) :=
  (List.range (rd 2 f 4)).map fun i => (slice f (6 + 16 * i) 12, slice f (rd 4 f (6 + 16 * i + 12)) (rd 4 f (6 + 16 * i + 8)))

/-- The headers of images, the first of which is at `off`, one behind the other. -/
def icoDir : (off : Nat) → List (Bytes × Bytes) → Bytes
  | _, [] => []
  | off, x :: xs => x.1 ++ leBytes 4 off ++ icoDir (off + rd 4 x.1 8) xs

/-- The file with the images `xs`, without gaps; `h` are the first four bytes. -/
def icoFile (h : Bytes) (xs : List (Bytes × Bytes)) : Bytes :=
  h ++ leBytes 2 xs.length ++ icoDir (6 + 16 * xs.length) xs ++ (xs.map Prod.snd).flatten

/-- The descriptions give the sizes of the images. -/
def IcoOk (xs : List (Bytes × Bytes)) : Prop := ∀ x ∈ xs, x.1.length = 12 ∧ x.2.length = rd 4 x.1 8

/-- The description of a cursor that has a height below 128 and no color count: what the stored form of cursors can hold. -/
def cursorDesc (d : Bytes) : Bytes := leBytes 1 (rd 1 d 0) ++ leBytes 1 (rd 1 d 1 % 128) ++ zeros 2 ++ slice d 4 8

/-- What becomes of the description of an image. -/
def IcKind.shown : IcKind → Bytes × Bytes → Bytes × Bytes
  | .icon, x => x
  | .cursor, x => (cursorDesc x.1, x.2)

/-- The entry of type `t` is a directory, if it is there. -/
def ResDir.TypeFree (r : ResDir) (t : ResKey) : Prop := ∀ e, r.first t = some e → ¬ e.NotDir

/-- The group `key` can be written in language `lang`: nothing is in the way, and there are no two resources of this language. -/
def ResDir.GroupFree (r : ResDir) (k : IcKind) (key : ResKey) (lang : Nat) : Prop :=
  ¬ r.Blocked k.grpType key ∧ ∀ a, r.sub [k.grpType, key] = some a → (a.es.map ResEntry.key).count (.id lang) ≤ 1

end PE
