/-
Layout of a written PE file (independent of the rebuilder's code).
-/
import Verif.Spec.Layout
import Verif.Props.Directories
namespace PE

/-- Offset of the NT headers in the written file. -/
def Image.ntStart (p : Image) (strip : Bool) : Nat := if strip then 16 else 64 + ceilTo p.stub.length 4

/-- End of the section table in the written file: NT headers with the stored directories, 40 bytes per section. -/
def Image.tableEnd (p : Image) (strip : Bool) : Nat :=
  p.ntStart strip + (p.kind.sizeofNt - 8 * (16 - p.nt.numRva)) + 40 * p.secs.length

/-- The bound import directory entry (number 11). -/
def Image.boundDir (p : Image) : Nat × Nat := (p.nt.dirs[11]?).getD (0, 0)

/-- There is a bound import directory. -/
def Image.HasBound (p : Image) : Prop := 11 < p.nt.numRva ∧ p.boundDir.1 ≠ 0

instance (p : Image) : Decidable p.HasBound := inferInstanceAs (Decidable (_ ∧ _))

/-- Bytes of bound import data put behind the section table. -/
def Image.boundSize (p : Image) (save : Bool) : Nat := if save = true ∧ p.HasBound then p.boundDir.2 else 0

/-- Where the raw data of the first section starts: end of everything before, rounded up. -/
def Image.dataStart (p : Image) (strip save : Bool) : Nat :=
  ceilTo (p.tableEnd strip + p.boundSize save) p.nt.fileAlign

/-- Raw offset of section `i` when the sections are packed one after the other from `start` on, each rounded up
    to the file alignment. -/
def rawOffset (fa start : Nat) (secs : List Sec) (i : Nat) : Nat :=
  start + ((secs.take i).map (fun s => ceilTo s.rawSize fa)).sum

/-- The file with all its raw data is smaller than 4 GiB. -/
def Image.FileFits (p : Image) (strip save : Bool) : Prop :=
  rawOffset p.nt.fileAlign (p.dataStart strip save) p.secs p.secs.length < 2 ^ 32

instance (p : Image) (strip save : Bool) : Decidable (p.FileFits strip save) := inferInstanceAs (Decidable (_ < _))

/-- The bound import data are carried over if requested, unless they lie in a section anyway. -/
def Image.savesBound (p : Image) (saveBound : Bool) : Bool :=
  saveBound && !decide (p.HasBound ∧ p.boundDir.1 > p.nt.sizeHeaders)

/-- No section without raw data has a raw pointer behind the place where it would be written. -/
def NoStalePointers (fa start : Nat) (secs : List Sec) : Prop :=
  ∀ i s, secs[i]? = some s → s.rawSize = 0 → s.rawPtr ≤ rawOffset fa start secs i

/-- Size conditions that hold for every image that fits into memory (and has 32-bit header fields). -/
structure Image.Sized (p : Image) : Prop where
  dirs : p.nt.DirsOk
  stub : p.stub.length < 4294967296
  secs : p.secs.length < 4294967296
  bound : p.boundDir.2 < 4294967296

/-- Fixed length parts have their length and `SizeOfRawData` is a 32-bit value (true for every C++ object). -/
structure Image.Shaped (p : Image) : Prop where
  dos : p.dos.length = 60
  names : ∀ s ∈ p.secs, s.name.length = 8
  raws : ∀ s ∈ p.secs, s.rawSize < 4294967296

end PE
