/-
C93: what an image has, according to `has_*`.
-/
import Verif.Model.Has
import Verif.Props.Load
import Verif.Props.Directories

namespace PE

/-- Where the directories start in the NT headers. -/
def dirStart : Kind → Nat
  | .pe32 => 120
  | .pe64 => 136

/-- The file has the directory number `id`: it is within the count of directories, which is stored before them, it is one of the 16 that the
    format defines, and its address is not 0. -/
def FileHas (k : Kind) (file : Bytes) (id : Nat) : Prop :=
  id < rd 4 file (rd 4 file 60 + dirStart k - 4) ∧ id < 16 ∧ rd 4 file (rd 4 file 60 + dirStart k + 8 * id) ≠ 0

instance (k : Kind) (file : Bytes) (id : Nat) : Decidable (FileHas k file id) := inferInstanceAs (Decidable (_ ∧ _ ∧ _))

/-- What the functions answer for an image with the directories `has`, whose relocations are stripped or not. -/
structure Answers (p : Image) (has : Nat → Prop) [∀ id, Decidable (has id)] (stripped : Prop) [Decidable stripped] : Prop where
  exports : p.hasExports = .ok (decide (has 0))
  imports : p.hasImports = .ok (decide (has 1))
  resources : p.hasResources = .ok (decide (has 2))
  exceptions : p.hasExceptionDirectory = .ok (decide (has 3))
  security : p.hasSecurity = .ok (decide (has 4))
  reloc : p.hasReloc = .ok (decide (has 5) && decide (¬ stripped))
  debug : p.hasDebug = .ok (decide (has 6))
  tls : p.hasTls = .ok (decide (has 9))
  config : p.hasConfig = .ok (decide (has 10))
  bound : p.hasBoundImport = .ok (decide (has 11))
  delay : p.hasDelayImport = .ok (decide (has 13))
  dotnet : p.isDotnet = .ok (decide (has 14))

theorem and_one (n : Nat) : ((n &&& 1) == 0) = decide (¬ n % 2 = 1) := by
  rw [show n &&& 1 = n % 2 from Nat.and_one_is_mod n]
  rcases Nat.mod_two_eq_zero_or_one n with h | h <;> rw [h] <;> rfl

theorem answers_of {p : Image} {has : Nat → Prop} [∀ id, Decidable (has id)] {stripped : Prop} [Decidable stripped]
    (h : ∀ id, id < 16 → p.nt.directoryExists id = .ok (decide (has id))) (hs : stripped ↔ p.nt.chars % 2 = 1) :
    Answers p has stripped where
  exports := h 0 (by decide)
  imports := h 1 (by decide)
  resources := h 2 (by decide)
  exceptions := h 3 (by decide)
  security := h 4 (by decide)
  reloc := by
    unfold Image.hasReloc
    rw [show dirBaseReloc = 5 from rfl, h 5 (by decide), ok_bind, and_one]
    simp only [hs]
  debug := h 6 (by decide)
  tls := h 9 (by decide)
  config := h 10 (by decide)
  bound := h 11 (by decide)
  delay := h 13 (by decide)
  dotnet := h 14 (by decide)

theorem sizeofNtBase_dirStart (k : Kind) : k.sizeofNtBase = dirStart k := by cases k <;> rfl

/-- C93: for an image that was loaded, `has_*` tell what the header of the file says: whether the directory is within the directory table and its
    address is not 0; for relocations also whether the flag "relocations stripped" is clear. -/
theorem C93_loaded (k : Kind) (strict fromMem dbg : Bool) (file : Bytes) (p : Image)
    (h : load k strict fromMem dbg (List.replicate 16 (0, 0)) file = .ok p) :
    Answers p (FileHas k file) (rd 2 file (rd 4 file 60 + 22) % 2 = 1) := by
  obtain ⟨ok, hnt, hsecs, hk, hhd, hlf, hdos, hstub⟩ := load_fields h
  have hntl := ok.ntlen
  rw [← hlf] at hntl ⊢
  obtain ⟨v, hv⟩ : ∃ v, v = rd 4 file (p.lfanew + dirStart k - 4) := ⟨_, rfl⟩
  obtain ⟨n, hn⟩ : ∃ n, n = (if v > 16 then 16 else v) := ⟨_, rfl⟩
  have hcount : rd 4 (slice file p.lfanew k.sizeofNtBase) (100 + 4 * k.ptr) = v := by
    rw [hv]
    cases k
    · rw [rd_slice (by decide)]; rfl
    · rw [rd_slice (by decide)]; rfl
  have hnum : p.nt.numRva = n := by
    rw [hnt, hn, ← hcount]; rfl
  have hdirs : p.nt.dirs = decDirs (slice file (p.lfanew + dirStart k) (8 * n)) n ++ (List.replicate 16 ((0 : Nat), (0 : Nat))).drop n := by
    rw [← sizeofNtBase_dirStart, ← hnum, hnt]; rfl
  have hchars : p.nt.chars = rd 2 file (p.lfanew + 22) := by
    rw [hnt]
    unfold ntOf NtHdr.readDirs NtHdr.clampRva decNt
    dsimp only
    exact rd_slice (by cases k <;> decide)
  have hn16 : n ≤ 16 := by rw [hn]; split <;> omega
  have hat : ∀ id, id < 16 → p.nt.dirAt id =
      .ok (if id < n then (rd 4 file (p.lfanew + dirStart k + 8 * id), rd 4 file (p.lfanew + dirStart k + 8 * id + 4)) else (0, 0)) := by
    intro id hid
    unfold NtHdr.dirAt
    rw [hdirs]
    by_cases h1 : id < n
    · rw [List.getElem?_append_left (by rw [decDirs_length]; exact h1)]
      unfold decDirs
      rw [List.getElem?_map, List.getElem?_range h1, Option.map_some, if_pos h1]
      dsimp only
      rw [rd_slice (by omega), rd_slice (by omega), Nat.add_assoc (p.lfanew + dirStart k)]
    · rw [List.getElem?_append_right (by rw [decDirs_length]; omega), decDirs_length, List.getElem?_drop,
        List.getElem?_replicate_of_lt (by omega), if_neg h1]
  refine answers_of (fun id hid => ?_) (by rw [hchars])
  unfold NtHdr.directoryExists
  rw [hat id hid, hnum]
  have hfh : FileHas k file id ↔ (id < v ∧ id < 16 ∧ rd 4 file (p.lfanew + dirStart k + 8 * id) ≠ 0) := by
    unfold FileHas
    rw [← hlf, ← hv]
  rw [show decide (FileHas k file id) = decide (id < v ∧ id < 16 ∧ rd 4 file (p.lfanew + dirStart k + 8 * id) ≠ 0) from
    decide_eq_decide.mpr hfh]
  by_cases h1 : id < n
  · have h2 : sub32 n 1 ≥ id := by unfold sub32; omega
    have h3 : id < v := by rw [hn] at h1; split at h1 <;> omega
    rw [if_pos h2, ok_bind, if_pos h1]
    dsimp only
    congr 1
    by_cases h4 : rd 4 file (p.lfanew + dirStart k + 8 * id) = 0
    · rw [h4]; simp
    · simp [h3, hid, h4]
  · have h3 : ¬ id < v := by rw [hn] at h1; split at h1 <;> omega
    have h5 : (decide (id < v ∧ id < 16 ∧ rd 4 file (p.lfanew + dirStart k + 8 * id) ≠ 0)) = false :=
      decide_eq_false fun h => h3 h.1
    rw [h5]
    split
    · rfl
    · rfl

/-- C93: a new image has nothing. -/
theorem C93_created (k : Kind) (secAlign : Nat) (dll : Bool) (subsystem : Nat) :
    Answers (createImage k secAlign dll subsystem) (fun _ => False) True := by
  have h1 : (createImage k secAlign dll subsystem).nt.dirs = List.replicate 16 (0, 0) ∧
      (createImage k secAlign dll subsystem).nt.numRva = 16 ∧ (createImage k secAlign dll subsystem).nt.chars % 2 = 1 := by
    cases k <;> cases dll <;> exact ⟨rfl, rfl, by simp [createImage, NtHdr.setCharFlags]⟩
  obtain ⟨hd, hn, hc⟩ := h1
  refine answers_of (fun id hid => ?_) ⟨fun _ => hc, fun _ => trivial⟩
  unfold NtHdr.directoryExists NtHdr.dirAt
  rw [hn, hd, List.getElem?_replicate_of_lt hid, if_pos (by unfold sub32; omega)]
  rfl

/-- C93_loaded applies: a file with two directories, of which the one for imports has an address. -/
def hasFile : Bytes :=
  let h := { tinyNt 2 1088 288 with numRva := 2, sizeOptHdr := 112 }
  [0x4d, 0x5a] ++ zeros 58 ++ leBytes 4 64 ++ encFields (ntFields .pe32 h) ++ (zeros 8 ++ (leBytes 4 1030 ++ leBytes 4 20)) ++
    [tinySec 30 1024 20 288, tinySec 5 1056 0 0].flatMap encSec ++ zeros 100

example : ∃ p, load .pe32 true false true (List.replicate 16 (0, 0)) hasFile = .ok p ∧ p.hasImports = .ok true ∧ p.hasExports = .ok false ∧
    p.hasTls = .ok false := by
  obtain ⟨p, h1, -⟩ := exists_of_okAnd (x := load .pe32 true false true (List.replicate 16 (0, 0)) hasFile) (f := fun _ => true) (by decide +kernel)
  have h := C93_loaded _ _ _ _ _ _ h1
  refine ⟨p, h1, ?_, ?_, ?_⟩
  · rw [h.imports]; exact congrArg Except.ok (by decide +kernel)
  · rw [h.exports]; exact congrArg Except.ok (by decide +kernel)
  · rw [h.tls]; exact congrArg Except.ok (by decide +kernel)

end PE
