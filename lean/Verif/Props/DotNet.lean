/-
C72: the .NET header.
-/
import Verif.Model.DotNet
import Verif.Props.Exception
import Verif.Props.FileVer
import Verif.Props.Reloc
namespace PE

/-- The layout of a .NET header of 72 bytes: its fields one after the other. -/
def corBytes (h : CorHdr) : Bytes :=
  leBytes 4 h.cb ++ (leBytes 2 h.major ++ (leBytes 2 h.minor ++ (leBytes 4 h.metaData.1 ++ (leBytes 4 h.metaData.2 ++
  (leBytes 4 h.flags ++ (leBytes 4 h.entry ++ (leBytes 4 h.resources.1 ++ (leBytes 4 h.resources.2 ++
  (leBytes 4 h.strongName.1 ++ (leBytes 4 h.strongName.2 ++ (leBytes 4 h.codeManager.1 ++ (leBytes 4 h.codeManager.2 ++
  (leBytes 4 h.vtableFixups.1 ++ (leBytes 4 h.vtableFixups.2 ++ (leBytes 4 h.jumps.1 ++ (leBytes 4 h.jumps.2 ++
  (leBytes 4 h.native.1 ++ leBytes 4 h.native.2)))))))))))))))))

theorem getDotNet_safe {p : Image} (hr : Readable p) (u : UB) :
    p.getDotNet ≠ .error (.ub u) := by
  unfold Image.getDotNet
  exact (NoUB.bind (hasDir_noUB hr.dirs.slots (by decide)) (fun b _ => NoUB.bind (NoUB.throwIf _ _) (fun _ _ =>
    NoUB.bind (getDir_noUB hr.dirs _).1 (fun rva _ => NoUB.bind (readT_noUB _ _ _ _ _) (fun b _ => NoUB.ok _))))) u

/-- C72: on every image loaded from any file, `get_basic_dotnet_info` returns or throws. -/
theorem C72_safe (k : Kind) (strict fromMem dbg : Bool) (pre : List (Nat × Nat)) (hp : pre.length = 16)
    (hp' : ∀ d ∈ pre, d.1 < 2 ^ 32) (file : Bytes) (p : Image) (h : load k strict fromMem dbg pre file = .ok p) (u : UB) :
    p.getDotNet ≠ .error (.ub u) := by
  exact getDotNet_safe (loaded_readable hp hp' h) u

theorem corBytes_ofBytes {b : Bytes} (h : b.length = 72) : corBytes (CorHdr.ofBytes b) = b := by
  unfold corBytes CorHdr.ofBytes rdDir
  dsimp only
  rw [leBytes_rd (by omega), leBytes_rd (by omega), leBytes_rd (by omega), leBytes_rd (by omega), leBytes_rd (by omega),
    leBytes_rd (by omega), leBytes_rd (by omega), leBytes_rd (by omega), leBytes_rd (by omega), leBytes_rd (by omega),
    leBytes_rd (by omega), leBytes_rd (by omega), leBytes_rd (by omega), leBytes_rd (by omega), leBytes_rd (by omega),
    leBytes_rd (by omega), leBytes_rd (by omega), leBytes_rd (by omega), leBytes_rd (by omega)]
  have hs : ∀ o n q m, q = o + n → slice b o n ++ slice b q m = slice b o (n + m) := by
    intro o n q m e; subst e; exact slice_add.symm
  rw [hs 64 4 68 _ rfl, hs 60 4 64 _ rfl, hs 56 4 60 _ rfl, hs 52 4 56 _ rfl, hs 48 4 52 _ rfl, hs 44 4 48 _ rfl,
    hs 40 4 44 _ rfl, hs 36 4 40 _ rfl, hs 32 4 36 _ rfl, hs 28 4 32 _ rfl, hs 24 4 28 _ rfl, hs 20 4 24 _ rfl,
    hs 16 4 20 _ rfl, hs 12 4 16 _ rfl, hs 8 4 12 _ rfl, hs 6 2 8 _ rfl, hs 4 2 6 _ rfl, hs 0 4 4 _ rfl]
  unfold slice
  rw [List.drop_zero, List.take_of_length_le (by omega)]

/-- C72: what is returned is the header that the directory points to. -/
theorem C72_contents (p : Image) (h : CorHdr) (hh : p.getDotNet = .ok h) :
    ∃ rva, p.nt.getDirRva 14 = .ok rva ∧ p.readT 72 rva .virt true = .ok (corBytes h) := by
  unfold Image.getDotNet at hh
  obtain ⟨has, -, hh⟩ := bind_ok_iff.1 hh
  obtain ⟨-, -, hh⟩ := bind_ok_iff.1 hh
  obtain ⟨rva, h1, hh⟩ := bind_ok_iff.1 hh
  obtain ⟨b, h2, hh⟩ := bind_ok_iff.1 hh
  refine ⟨rva, h1, ?_⟩
  rw [← Except.ok.inj hh, corBytes_ofBytes (readT_length h2), h2]

/-- C72: an image without the directory is refused with the documented exception. -/
theorem C72_not_managed (p : Image) (ho : p.nt.DirsOk) (hn : 1 ≤ p.nt.numRva)
    (h : p.nt.numRva ≤ 14 ∨ (p.nt.dirs[14]?).map Prod.fst = some 0) :
    p.getDotNet = .error (.exn .imageDoesNotHaveManagedCode) := by
  have e : p.nt.directoryExists 14 = .ok false := by
    rw [NtHdr.directoryExists_eq ho hn]
    refine congrArg Except.ok ?_
    rcases h with hx | hx
    · rw [decide_eq_false (by omega), Bool.false_and]
    · rw [Option.map_eq_some_iff] at hx
      obtain ⟨d, h1, h2⟩ := hx
      rw [h1, Option.getD_some, h2]; simp
  unfold Image.getDotNet Image.hasDir
  rw [show dirComDescriptor = 14 from rfl, e]
  rfl

/-- C72: the four questions about the flags are answered by bits 0, 1, 2 and 4. -/
theorem C72_flags (h : CorHdr) : h.ilOnly = h.flags.testBit 0 ∧ h.bits32 = h.flags.testBit 1 ∧
    h.ilLibrary = h.flags.testBit 2 ∧ h.nativeEntry = h.flags.testBit 4 :=
  ⟨and_pow_ne _ 0, and_pow_ne _ 1, and_pow_ne _ 2, and_pow_ne _ 4⟩

/-- A small managed file. -/
def corHdr : CorHdr :=
  { cb := 72, major := 2, minor := 5, metaData := (0x2050, 600), flags := 3, entry := 0x6000001, resources := (1, 2),
    strongName := (3, 4), codeManager := (5, 6), vtableFixups := (7, 8), jumps := (9, 10), native := (11, 12) }

def corFile : Bytes :=
  [0x4d, 0x5a] ++ zeros 58 ++ leBytes 4 64 ++
    encFields (ntFields .pe32 { tinyNt 1 1120 352 with numRva := 15, sizeOptHdr := 216 }) ++
    zeros 112 ++ (leBytes 4 1032 ++ leBytes 4 72) ++ encSec (tinySec 80 1024 80 352) ++ zeros 8 ++
    (zeros 8 ++ corBytes corHdr)

example : ∃ p, load .pe32 true false true zeroDirs corFile = .ok p ∧ p.getDotNet = .ok corHdr ∧ corHdr.ilOnly = true ∧
    corHdr.nativeEntry = false := by
  obtain ⟨p, h1, h2⟩ := exists_of_okAnd (x := load .pe32 true false true zeroDirs corFile)
    (f := fun p => decide (p.getDotNet = .ok corHdr)) (by decide +kernel)
  exact ⟨p, h1, of_decide_eq_true h2, by decide, by decide⟩

end PE
