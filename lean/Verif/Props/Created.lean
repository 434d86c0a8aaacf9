/-
C74: the headers of a new image, byte by byte.
-/
import Verif.Model.Header
import Verif.Model.Accessors
import Verif.Model.Has

namespace PE

/-- The DOS header of a new image: "MZ", the values of an MSVC++ build, no address of the PE headers yet. -/
def newDos : Bytes :=
  [0x4d, 0x5a, 0x90, 0, 3, 0, 0, 0, 4, 0, 0, 0, 0xff, 0xff, 0, 0, 0xb8, 0, 0, 0, 0, 0, 0, 0, 0x40, 0, 0, 0, 0, 0, 0, 0] ++ zeros 32

/-- The NT headers of a new PE32 image: "PE", machine i386, no sections, the size of the optional header, the flags, magic number, image base 0x400000,
    the section alignment, file alignment 512, versions 5.1, 1024 bytes of headers, the subsystem, 1 MiB and 4 KiB of stack and heap, 16 directories. -/
def newNt32 (secAlign subsystem : Nat) (dll : Bool) : Bytes :=
  ([0x50, 0x45, 0, 0, 0x4c, 1, 0, 0] ++ zeros 12 ++ [0xe0, 0, 3, if dll then 0x21 else 1] ++ [0x0b, 1] ++ zeros 26 ++ [0, 0, 0x40, 0]) ++
    leBytes 4 secAlign ++ ([0, 2, 0, 0] ++ [5, 0, 1, 0, 0, 0, 0, 0, 5, 0, 1, 0] ++ zeros 8 ++ [0, 4, 0, 0] ++ zeros 4) ++ leBytes 2 subsystem ++
    ([0, 0] ++ [0, 0, 0x10, 0] ++ [0, 0x10, 0, 0] ++ [0, 0, 0x10, 0] ++ [0, 0x10, 0, 0] ++ zeros 4 ++ [16, 0, 0, 0]) ++ zeros 128

/-- The same for PE32+ (with the machine i386, as the library has it). -/
def newNt64 (secAlign subsystem : Nat) (dll : Bool) : Bytes :=
  ([0x50, 0x45, 0, 0, 0x4c, 1, 0, 0] ++ zeros 12 ++ [0xf0, 0, 3, if dll then 0x20 else 0] ++ [0x0b, 2] ++ zeros 22 ++ [0, 0, 0x40, 0, 0, 0, 0, 0]) ++
    leBytes 4 secAlign ++ ([0, 2, 0, 0] ++ [5, 0, 1, 0, 0, 0, 0, 0, 5, 0, 1, 0] ++ zeros 8 ++ [0, 4, 0, 0] ++ zeros 4) ++ leBytes 2 subsystem ++
    ([0, 0] ++ [0, 0, 0x10, 0, 0, 0, 0, 0] ++ [0, 0x10, 0, 0, 0, 0, 0, 0] ++ [0, 0, 0x10, 0, 0, 0, 0, 0] ++ [0, 0x10, 0, 0, 0, 0, 0, 0] ++ zeros 4 ++
      [16, 0, 0, 0]) ++ zeros 128

theorem enc_split (A B C : List (Nat × Nat)) (x y : Nat × Nat) :
    encFields (A ++ (x :: (B ++ (y :: C)))) = encFields A ++ leBytes x.1 x.2 ++ encFields B ++ leBytes y.1 y.2 ++ encFields C := by
  unfold encFields
  simp only [List.flatMap_append, List.flatMap_cons, List.append_assoc]

/-- C74: what `get_dos_header` and `get_nt_headers_ptr` show of a new image, for every section alignment and subsystem; and it has no sections, no
    stub, no overlay. -/
theorem C74_created (k : Kind) (sa : Nat) (dll : Bool) (sub : Nat) :
    let p := createImage k sa dll sub
    p.dos ++ leBytes 4 p.lfanew = newDos ∧
    encFields (ntFields k p.nt) ++ encDirs p.nt.dirs = (match k with | .pe32 => newNt32 sa sub dll | .pe64 => newNt64 sa sub dll) ∧
    p.kind = k ∧ p.secs = [] ∧ p.stub = [] ∧ p.hasOverlay = false ∧ p.hdrData = [] ∧ p.debugData = [] := by
  refine ⟨show createDos ++ leBytes 4 0 = newDos by decide +kernel, ?_, rfl, rfl, rfl, rfl, rfl, rfl⟩
  have hd : encDirs (createImage k sa dll sub).nt.dirs = zeros 128 := by cases k <;> cases dll <;> exact (by decide +kernel : encDirs (List.replicate 16 (0, 0)) = zeros 128)
  rw [hd]
  cases k with
  | pe32 =>
    rw [show ntFields .pe32 (createImage .pe32 sa dll sub).nt = (ntFields .pe32 (createImage .pe32 0 dll 0).nt).take 18 ++ ((4, sa) ::
      (((ntFields .pe32 (createImage .pe32 0 dll 0).nt).drop 19).take 11 ++ ((2, sub) :: (ntFields .pe32 (createImage .pe32 0 dll 0).nt).drop 31))) from by
        cases dll <;> rfl, enc_split]
    unfold newNt32
    have e1 : encFields ((ntFields .pe32 (createImage .pe32 0 dll 0).nt).take 18) =
        [0x50, 0x45, 0, 0, 0x4c, 1, 0, 0] ++ zeros 12 ++ [0xe0, 0, 3, if dll then 0x21 else 1] ++ [0x0b, 1] ++ zeros 26 ++ [0, 0, 0x40, 0] := by cases dll <;> decide +kernel
    have e2 : encFields (((ntFields .pe32 (createImage .pe32 0 dll 0).nt).drop 19).take 11) =
        [0, 2, 0, 0] ++ [5, 0, 1, 0, 0, 0, 0, 0, 5, 0, 1, 0] ++ zeros 8 ++ [0, 4, 0, 0] ++ zeros 4 := by cases dll <;> decide +kernel
    have e3 : encFields ((ntFields .pe32 (createImage .pe32 0 dll 0).nt).drop 31) =
        [0, 0] ++ [0, 0, 0x10, 0] ++ [0, 0x10, 0, 0] ++ [0, 0, 0x10, 0] ++ [0, 0x10, 0, 0] ++ zeros 4 ++ [16, 0, 0, 0] := by cases dll <;> decide +kernel
    rw [e1, e2, e3]
  | pe64 =>
    rw [show ntFields .pe64 (createImage .pe64 sa dll sub).nt = (ntFields .pe64 (createImage .pe64 0 dll 0).nt).take 17 ++ ((4, sa) ::
      (((ntFields .pe64 (createImage .pe64 0 dll 0).nt).drop 18).take 11 ++ ((2, sub) :: (ntFields .pe64 (createImage .pe64 0 dll 0).nt).drop 30))) from by
        cases dll <;> rfl, enc_split]
    unfold newNt64
    have e1 : encFields ((ntFields .pe64 (createImage .pe64 0 dll 0).nt).take 17) =
        [0x50, 0x45, 0, 0, 0x4c, 1, 0, 0] ++ zeros 12 ++ [0xf0, 0, 3, if dll then 0x20 else 0] ++ [0x0b, 2] ++ zeros 22 ++ [0, 0, 0x40, 0, 0, 0, 0, 0] := by cases dll <;> decide +kernel
    have e2 : encFields (((ntFields .pe64 (createImage .pe64 0 dll 0).nt).drop 18).take 11) =
        [0, 2, 0, 0] ++ [5, 0, 1, 0, 0, 0, 0, 0, 5, 0, 1, 0] ++ zeros 8 ++ [0, 4, 0, 0] ++ zeros 4 := by cases dll <;> decide +kernel
    have e3 : encFields ((ntFields .pe64 (createImage .pe64 0 dll 0).nt).drop 30) =
        [0, 0] ++ [0, 0, 0x10, 0, 0, 0, 0, 0] ++ [0, 0x10, 0, 0, 0, 0, 0, 0] ++ [0, 0, 0x10, 0, 0, 0, 0, 0] ++ [0, 0x10, 0, 0, 0, 0, 0, 0] ++ zeros 4 ++ [16, 0, 0, 0] := by cases dll <;> decide +kernel
    rw [e1, e2, e3]

example : (newNt32 0x1000 3 true).length = 248 ∧ (newNt64 0x1000 3 true).length = 264 := by decide +kernel

end PE
