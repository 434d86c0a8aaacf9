/-
Vocabulary for resource trees (independent of the code that reads and writes them).
-/
import Verif.Model.Resources
import Verif.Spec.Layout

namespace PE

/-- The order of the entries of a resource directory in the file: names first, ordered as strings, then ascending numbers. -/
def ResKey.Before : ResKey → ResKey → Prop
  | .name a, .name b => a < b
  | .name _, .id _ => True
  | .id a, .id b => a < b
  | .id _, .name _ => False

/-- A key that the format can hold: a number of 16 bits, or up to 65535 characters of 16 bits without surrogates. -/
def ResKey.Ok : ResKey → Prop
  | .id n => n < 65536
  | .name w => w.length < 65536 ∧ ∀ c ∈ w, c < 0xD800 ∨ (0xE000 ≤ c ∧ c < 0x10000)

/-- The fields of a directory that are stored as they are. -/
structure ResHdr.Ok (h : ResHdr) : Prop where
  chars : h.chars < 2 ^ 32
  stamp : h.stamp < 2 ^ 32
  major : h.major < 65536
  minor : h.minor < 65536

/-- The number of named entries, and of the others. -/
def namedCount (es : List ResEntry) : Nat := es.countP (fun e => e.isNamed)
def idCount (es : List ResEntry) : Nat := es.countP (fun e => !e.isNamed)

/-- What the format can hold in one directory (without looking into the entries): stored fields in range, 16-bit numbers of
    entries, different keys. -/
structure DirOk (h : ResHdr) (es : List ResEntry) : Prop where
  hdr : h.Ok
  named : namedCount es < 65536
  ids : idCount es < 65536
  keys : (es.map ResEntry.key).Nodup

mutual
/-- A tree that the format can hold: no entries without content, keys and directories as above, code pages of 32 bits. -/
def ResEntry.Ok : ResEntry → Prop
  | .empty _ => False
  | .data k cp _ => k.Ok ∧ cp < 2 ^ 32
  | .dir k h es => k.Ok ∧ DirOk h es ∧ AllOk es
/-- The same for all entries of a list. -/
def AllOk : List ResEntry → Prop
  | [] => True
  | e :: es => e.Ok ∧ AllOk es
end

/-- The same for the root. -/
structure ResDir.Ok (r : ResDir) : Prop where
  dir : DirOk r.h r.es
  all : AllOk r.es
  some : r.es ≠ []

mutual
/-- All data in the tree satisfy `P`. -/
def ResEntry.AllData (P : Bytes → Prop) : ResEntry → Prop
  | .empty _ => True
  | .data _ _ d => P d
  | .dir _ _ es => AllData P es
def AllData (P : Bytes → Prop) : List ResEntry → Prop
  | [] => True
  | e :: es => e.AllData P ∧ AllData P es
end

/-- Bytes of a stored name: its length, the characters and a zero character. -/
def ResKey.bytes : ResKey → Nat
  | .id _ => 0
  | .name w => 2 + 2 * w.length + 2

mutual
/-- Bytes of the tables below an entry: 16 for a directory and 8 for each of its entries. -/
def ResEntry.tables : ResEntry → Nat
  | .dir _ _ es => 16 + 8 * es.length + tablesOf es
  | .data _ _ _ => 0
  | .empty _ => 0
def tablesOf : List ResEntry → Nat
  | [] => 0
  | e :: es => e.tables + tablesOf es
end

mutual
/-- Bytes of all names in an entry. -/
def ResEntry.names : ResEntry → Nat
  | .dir k _ es => k.bytes + namesIn es
  | .data k _ _ => k.bytes
  | .empty k => k.bytes
def namesIn : List ResEntry → Nat
  | [] => 0
  | e :: es => e.names + namesIn es
end

mutual
/-- Where the data end when they are stored one after the other from `pos` on: each with a record of 16 bytes at the next
    multiple of 4. -/
def ResEntry.dataEnd : ResEntry → Nat → Nat
  | .dir _ _ es, pos => dataEndOf es pos
  | .data _ _ d, pos => ceilTo pos 4 + 16 + d.length
  | .empty _, pos => pos
def dataEndOf : List ResEntry → Nat → Nat
  | [], pos => pos
  | e :: es, pos => dataEndOf es (e.dataEnd pos)
end

/-- The directory at a path of keys. -/
def ResDir.sub (r : ResDir) : List ResKey → Option ResDir
  | [] => some r
  | k :: ks =>
    match r.es.find? (fun e => e.key = k) with
    | some (.dir _ h es) => ResDir.sub { h := h, es := es } ks
    | _ => none

/-- Key and (unless it is a directory) content of an entry. -/
def ResEntry.shown : ResEntry → ResKey × Option (Nat × Bytes)
  | .empty k => (k, none)
  | .data k cp d => (k, some (cp, d))
  | .dir k _ _ => (k, none)

/-- The directory `b` (as read) for the directory `a` (as written): the stored fields, the right numbers of entries, the
    same entries in ascending order. -/
structure ResDir.Level (a b : ResDir) : Prop where
  chars : b.h.chars = a.h.chars
  stamp : b.h.stamp = a.h.stamp
  major : b.h.major = a.h.major
  minor : b.h.minor = a.h.minor
  named : b.h.named = namedCount a.es
  ids : b.h.ids = idCount a.es
  perm : (b.es.map ResEntry.shown).Perm (a.es.map ResEntry.shown)
  sorted : (b.es.map ResEntry.key).Pairwise ResKey.Before

/-- The tree `t` (as read) for the tree `r` (as written): the same paths, and `Level` for all directories. -/
def ResDir.Same (r t : ResDir) : Prop := ∀ path,
  match r.sub path, t.sub path with
  | none, none => True
  | some a, some b => a.Level b
  | _, _ => False

/-- All directories of the tree have their entries in ascending order. -/
def ResDir.Ordered (r : ResDir) : Prop := ∀ path a, r.sub path = some a → (a.es.map ResEntry.key).Pairwise ResKey.Before

end PE
