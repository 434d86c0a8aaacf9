/-
Vocabulary for looking up resources in a tree.
-/
import Verif.Spec.Resources
import Verif.Model.ResourceManager

namespace PE

/-- The entry for a key in a directory: the first one with that key. -/
def ResDir.first (r : ResDir) (k : ResKey) : Option ResEntry := r.es.find? (fun e => e.key = k)

/-- The entry for type, name and language. -/
def ResDir.entry3 (r : ResDir) (t n l : ResKey) : Option ResEntry :=
  match r.sub [t, n] with
  | some d => d.first l
  | none => none

/-- No directory has two entries with the same key. -/
def ResDir.Unique (r : ResDir) : Prop := ∀ path a, r.sub path = some a → (a.es.map ResEntry.key).Nodup

/-- An entry that is not a directory. -/
def ResEntry.NotDir : ResEntry → Prop
  | .dir _ _ _ => False
  | .data _ _ _ => True
  | .empty _ => True

/-- A resource cannot be added since something that is not a directory is in the way. -/
def ResDir.Blocked (r : ResDir) (t n : ResKey) : Prop :=
  (∃ e, r.first t = some e ∧ e.NotDir) ∨ (∃ d e, r.sub [t] = some d ∧ d.first n = some e ∧ e.NotDir)

end PE
