/-
Resource trees as values: the vocabulary of C80.
-/
import Verif.Model.ResourceObjects
namespace PE

/-- The entries of the directory an entry contains. -/
def ResEntry.kids : ResEntry → List ResEntry
  | .dir _ _ es => es
  | _ => []

/-- The entry at the end of a way through directories. -/
def ResEntry.at : List Nat → ResEntry → Option ResEntry
  | [], e => some e
  | i :: l, e =>
    match e.kids[i]? with
    | some c => ResEntry.at l c
    | none => none

/-- The tree with another entry at the end of a way. -/
def ResEntry.putAt (x : ResEntry) : List Nat → ResEntry → ResEntry
  | [], _ => x
  | i :: l, .dir k h es =>
    match es[i]? with
    | some c => .dir k h (es.set i (ResEntry.putAt x l c))
    | none => .dir k h es
  | _ :: _, e => e

/-- The same entry with another name or number. -/
def ResEntry.withKey (k : ResKey) : ResEntry → ResEntry
  | .empty _ => .empty k
  | .data _ cp d => .data k cp d
  | .dir _ h es => .dir k h es

/-- Neither of the two ways leads through the end of the other. -/
def ApartW (p q : List Nat) : Prop := ¬ p <+: q ∧ ¬ q <+: p

/-- The entry at a place. -/
def getAt (m : Nat → Option ResEntry) (d : ELoc) : Option ResEntry :=
  match m d.1 with
  | some e => e.at d.2
  | none => none

/-- The trees with another entry at a place. -/
def putAt (m : Nat → Option ResEntry) (d : ELoc) (x : ResEntry) : Nat → Option ResEntry :=
  setVar m d.1 ((m d.1).map (ResEntry.putAt x d.2))

/-- `s` is a place inside of the place `d`. -/
def Inside (d s : ELoc) : Prop := d.1 = s.1 ∧ d.2 <+: s.2 ∧ d.2 ≠ s.2

/-- Neither of two places is inside of the other, and they are different. -/
def ApartL (d s : ELoc) : Prop := d.1 = s.1 → ApartW d.2 s.2

/-- What the operations mean when entries are values. Assigning an entry to itself empties it. -/
def treeStep (m : Nat → Option ResEntry) : ROp → Nat → Option ResEntry
  | .make v => setVar m v (some (.empty (.id 0)))
  | .copy v s => setVar m v (getAt m s)
  | .assign d s =>
    match getAt m s with
    | some y => putAt m d (if d = s then .empty y.key else y)
    | none => m
  | .setKey d k =>
    match getAt m d with
    | some e => putAt m d (e.withKey k)
    | none => m
  | .addData d cp b =>
    match getAt m d with
    | some e => putAt m d (.data e.key cp b)
    | none => m
  | .addDataOf d s =>
    match getAt m d, getAt m s with
    | some e, some (.data _ cp b) => putAt m d (.data e.key cp b)
    | _, _ => m
  | .setData d cp b =>
    match getAt m d with
    | some (.data k _ _) => putAt m d (.data k cp b)
    | _ => m
  | .addDir d hd =>
    match getAt m d with
    | some e => putAt m d (.dir e.key hd [])
    | none => m
  | .addDirOf d s =>
    match getAt m d, getAt m s with
    | some e, some (.dir _ hd es) => putAt m d (.dir e.key hd es)
    | _, _ => m
  | .setHdr d hd =>
    match getAt m d with
    | some (.dir k _ es) => putAt m d (.dir k hd es)
    | _ => m
  | .push d s _ =>
    match getAt m d, getAt m s with
    | some (.dir k hd es), some y =>
      putAt m d (.dir k (ResDir.add { h := hd, es := es } y).h (ResDir.add { h := hd, es := es } y).es)
    | _, _ => m
  | .pop d =>
    match getAt m d with
    | some (.dir k hd es) => putAt m d (.dir k hd es.dropLast)
    | _ => m
  | .clear d =>
    match getAt m d with
    | some (.dir k hd _) => putAt m d (.dir k { hd with named := 0, ids := 0 } [])
    | _ => m
  | .destroy v => setVar m v none

/-- The entry contains data. -/
def IsData (e : Option ResEntry) : Prop := ∃ k cp b, e = some (.data k cp b)
/-- The entry contains a directory. -/
def IsDir (e : Option ResEntry) : Prop := ∃ k hd es, e = some (.dir k hd es)

/-- The uses of entries that are meant: objects live, have the content that is asked for, and no argument is inside of the
    entry that is changed or around it. When an entry is added to a directory it must not be from inside of this directory,
    if the vector of the directory is moved. -/
def Meant (m : Nat → Option ResEntry) : ROp → Prop
  | .make v => m v = none
  | .copy v s => m v = none ∧ getAt m s ≠ none
  | .assign d s => getAt m d ≠ none ∧ getAt m s ≠ none ∧ (d = s ∨ ApartL d s)
  | .setKey d _ => getAt m d ≠ none
  | .addData d _ _ => getAt m d ≠ none
  | .addDataOf d s => getAt m d ≠ none ∧ IsData (getAt m s) ∧ ApartL d s
  | .setData d _ _ => IsData (getAt m d)
  | .addDir d _ => getAt m d ≠ none
  | .addDirOf d s => getAt m d ≠ none ∧ IsDir (getAt m s) ∧ ApartL d s
  | .setHdr d _ => IsDir (getAt m d)
  | .push d s re => IsDir (getAt m d) ∧ getAt m s ≠ none ∧ (re = true → ¬ Inside d s)
  | .pop d => ∃ k hd es, getAt m d = some (.dir k hd es) ∧ es ≠ []
  | .clear d => IsDir (getAt m d)
  | .destroy v => m v ≠ none

/-- The same for programs. -/
def MeantAll (m : Nat → Option ResEntry) : List ROp → Prop
  | [] => True
  | op :: l => Meant m op ∧ MeantAll (treeStep m op) l

/-- The values after a program. -/
def treeRun (m : Nat → Option ResEntry) (l : List ROp) : Nat → Option ResEntry := l.foldl treeStep m

end PE
