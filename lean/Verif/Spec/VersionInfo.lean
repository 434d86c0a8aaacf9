/-
What version information consists of: independent of the reader and the writer.
-/
import Verif.Model.VersionInfo
import Verif.Spec.ResourceData
import Verif.Spec.Arith
import Verif.Lemmas.Map

namespace PE

/-- A string that is stored with a terminator and found again by searching for the terminator. -/
def KeyOk (w : WStr) : Prop := UcsStr w ∧ 0 ∉ w

/-- A value: the reader removes zeros at its end. -/
def ValueOk (w : WStr) : Prop := UcsStr w ∧ w.getLast? ≠ some 0

/-- The size of the string (`k`, `v`): a header of 6 bytes and the key with its terminator, then the value with its terminator, both padded
    to 4 bytes. -/
def verStrSize (x : WStr × WStr) : Nat := ceilTo (6 + 2 * (x.1.length + 1)) 4 + ceilTo (2 * (x.2.length + 1)) 4

/-- The size of a string table. -/
def verTableSize (x : WStr × StrMap) : Nat := ceilTo (6 + 2 * (x.1.length + 1)) 4 + (x.2.map verStrSize).sum

/-- The size of the whole version information: root block, StringFileInfo and VarFileInfo (if there is something in them). -/
def verSize (ss : LangMap) (ts : TransMap) : Nat :=
  92 + (if ss = [] then 0 else 36 + (ss.map verTableSize).sum) + (if ts = [] then 0 else 64 + 4 * ts.length)

/-- 32-bit values. -/
def FileVer.Ok (f : FileVer) : Prop :=
  f.verMS < 2 ^ 32 ∧ f.verLS < 2 ^ 32 ∧ f.prodMS < 2 ^ 32 ∧ f.prodLS < 2 ^ 32 ∧ f.flags < 2 ^ 32 ∧ f.os < 2 ^ 32 ∧ f.type < 2 ^ 32 ∧
    f.subtype < 2 ^ 32 ∧ f.dateMS < 2 ^ 32 ∧ f.dateLS < 2 ^ 32

/-- The strings can be stored. -/
def LangMap.Ok (ss : LangMap) : Prop := ∀ t ∈ ss, KeyOk t.1 ∧ ∀ x ∈ t.2, KeyOk x.1 ∧ ValueOk x.2

/-- What `std::map` guarantees: the keys are ascending. -/
def LangMap.Sorted (ss : LangMap) : Prop := MapSorted wlt ss ∧ ∀ t ∈ ss, MapSorted wlt t.2

/-- What `std::multimap` guarantees; the numbers have 16 bits. -/
def TransMap.Ok (ts : TransMap) : Prop := ts.Pairwise (fun a b => a.1 ≤ b.1) ∧ ∀ x ∈ ts, x.1 < 65536 ∧ x.2 < 65536

/-- Version information that is stored without loss. -/
structure VerOk (f : FileVer) (ss : LangMap) (ts : TransMap) : Prop where
  fixed : f.Ok
  strings : ss.Ok
  sorted : ss.Sorted
  trans : ts.Ok
  size : verSize ss ts < 65536

end PE
