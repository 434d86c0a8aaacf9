/-
C70: readers of absent directories.
-/
import Verif.Model.BoundImport
import Verif.Model.Debug
import Verif.Model.Exception
import Verif.Model.Exports
import Verif.Model.Imports
import Verif.Model.LoadConfig
import Verif.Model.Reloc
import Verif.Model.Resources
import Verif.Model.Tls
import Verif.Props.Directories
namespace PE

/-- What the readers report when their directory is not there: lists are empty, the load configuration and the TLS
    information cannot be read. `x id` says which directories are meant. -/
structure ReadsAbsent (p : Image) (x : Nat → Prop) : Prop where
  exports : x 0 → p.getExports = .ok (none, [])
  imports : x 1 → p.getImports = .ok []
  resources : x 2 → p.getResources = .ok {}
  exceptions : x 3 → p.getExceptions = .ok []
  relocations : x 5 → ∀ la, p.getRelocations la = .ok []
  debug : x 6 → p.getDebug = .ok []
  tls : x 9 → p.getTls = .error (.exn .directoryDoesNotExist)
  config : x 10 → p.getConfig = .error (.exn .directoryDoesNotExist)
  bound : x 11 → p.getBound = .ok []

theorem readsAbsent_of {p : Image} {x : Nat → Prop} (h : ∀ id, x id → p.nt.directoryExists id = .ok false) :
    ReadsAbsent p x where
  exports hx := by unfold Image.getExports Image.hasDir; rw [show dirExport = 0 from rfl, h 0 hx]; rfl
  imports hx := by unfold Image.getImports Image.hasDir; rw [show dirImport = 1 from rfl, h 1 hx]; rfl
  resources hx := by unfold Image.getResources Image.hasDir; rw [show dirResource = 2 from rfl, h 2 hx]; rfl
  exceptions hx := by unfold Image.getExceptions Image.hasDir; rw [show dirException = 3 from rfl, h 3 hx]; rfl
  relocations hx := by intro la; unfold Image.getRelocations Image.hasReloc; rw [show dirBaseReloc = 5 from rfl, h 5 hx]; rfl
  debug hx := by unfold Image.getDebug Image.hasDir; rw [show dirDebug = 6 from rfl, h 6 hx]; rfl
  tls hx := by unfold Image.getTls Image.hasDir; rw [show dirTls = 9 from rfl, h 9 hx]; rfl
  config hx := by unfold Image.getConfig Image.hasDir; rw [show dirLoadConfig = 10 from rfl, h 10 hx]; rfl
  bound hx := by unfold Image.getBound Image.hasDir; rw [show dirBoundImport = 11 from rfl, h 11 hx]; rfl

/-- C70: a directory behind the end of the table, or with the address 0, is reported as absent by its reader, whatever
    else the image contains. -/
theorem C70_absent (p : Image) (ho : p.nt.DirsOk) (hn : 1 ≤ p.nt.numRva) :
    ReadsAbsent p fun id => p.nt.numRva ≤ id ∨ (p.nt.dirs[id]?).map Prod.fst = some 0 := by
  refine readsAbsent_of fun id hx => ?_
  rw [NtHdr.directoryExists_eq ho hn]
  refine congrArg Except.ok ?_
  rcases hx with hx | hx
  · rw [decide_eq_false (by omega), Bool.false_and]
  · rw [Option.map_eq_some_iff] at hx
    obtain ⟨d, h1, h2⟩ := hx
    rw [h1, Option.getD_some, h2]; simp

/-- C70: after `remove_directory` the reader of the directory reports that it is absent. -/
theorem C70_removed (p : Image) (ho : p.nt.DirsOk) (hn : 1 ≤ p.nt.numRva) (id : Nat) :
    ∃ h', p.nt.removeDirectory id = .ok h' ∧ ReadsAbsent { p with nt := h' } (· = id) := by
  obtain ⟨h', h1, h2, -⟩ := C12_remove p.nt ho hn id
  refine ⟨h', h1, readsAbsent_of fun j hj => ?_⟩
  subst hj
  exact h2

/-- The hypotheses hold for the header with an export and a relocation directory; the other directories are absent. -/
example : demoNt.DirsOk ∧ 1 ≤ demoNt.numRva ∧ (demoNt.dirs[1]?).map Prod.fst = some 0 ∧ (demoNt.dirs[0]?).map Prod.fst = some 0x1000 :=
  ⟨⟨rfl, by decide⟩, by decide, rfl, rfl⟩

/-- C70 needs at least one entry in the table: with none, `directory_exists` looks at the (unused) slots and the readers
    throw. -/
theorem C70_empty_table : ∃ p : Image, p.nt.DirsOk ∧ p.nt.numRva = 0 ∧
    p.getImports = .error (.exn .directoryDoesNotExist) :=
  ⟨{ kind := .pe32, dos := [], lfanew := 0, nt := { numRva := 0, dirs := [(0, 0), (0x1000, 8)] ++ List.replicate 14 (0, 0) } },
    ⟨rfl, by decide⟩, rfl, by decide⟩

end PE
