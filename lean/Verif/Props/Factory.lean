/-
C73: opening a file without knowing its kind.
-/
import Verif.Props.SaveLoad
namespace PE

/-- The kind that is written in a file: the magic number of the optional header, behind the signature that the
    DOS header points to. -/
def FileKind (file : Bytes) (k : Kind) : Prop :=
  64 ≤ file.length ∧ rd 2 file 0 = 0x5a4d ∧ rd 4 file 60 < 2 ^ 31 ∧ rd 4 file 60 + 120 ≤ file.length ∧
  rd 4 file (rd 4 file 60) = 0x4550 ∧ rd 2 file (rd 4 file 60 + 24) = match k with | .pe32 => 0x10b | .pe64 => 0x20b

theorem rd_of_slice {w off n a : Nat} (file : Bytes) (h : off + w ≤ n) : rd w (slice file a n) off = rd w file (a + off) := by
  unfold rd; rw [slice_slice h]

theorem peType_iff (strict : Bool) (file : Bytes) (k : Kind) : peType strict file = .ok k ↔ FileKind file k := by
  have hdos : rd 4 (slice file 0 64) 60 = rd 4 file 60 := by rw [rd_of_slice _ (by decide), Nat.zero_add]
  have hlf : rd 4 file 60 < 4294967296 := rd_lt 4 file 60
  unfold peType FileKind
  constructor
  · intro hh
    obtain ⟨dos, h1, hh⟩ := bind_ok_iff.mp hh
    obtain ⟨hlen, hmz, rfl⟩ := readDosHeader_iff.mp h1
    rw [hdos] at hh
    dsimp only at hh
    rw [show ({ data := file, strict := strict, pos := 64 } : Stream) = st file strict 64 from rfl, seekg_st] at hh
    by_cases hs : rd 4 file 60 < 2147483648
    · have hi : int32 (rd 4 file 60) = (rd 4 file 60 : Int) := by unfold int32; rw [if_pos hs]
      rw [hi] at hh
      by_cases hc : 0 ≤ (rd 4 file 60 : Int) ∧ (strict = true → (rd 4 file 60 : Int) ≤ file.length)
      · rw [if_pos hc, throwIf_bind_ok_iff] at hh
        obtain ⟨⟨b, f⟩, h2, hh⟩ := bind_ok_iff.mp hh.2
        rw [readOr_st, Int.toNat_natCast] at h2
        by_cases hr : 120 ≤ file.length - rd 4 file 60
        · rw [if_pos hr] at h2
          have hb : b = slice file (rd 4 file 60) 120 := (Prod.mk.inj (Except.ok.inj h2)).1.symm
          subst hb
          rw [throwIf_bind_ok_iff, throwIf_bind_ok_iff, rd_of_slice _ (by decide), rd_of_slice _ (by decide), Nat.add_zero] at hh
          obtain ⟨h3, h4, h5⟩ := hh
          have h5 := Except.ok.inj h5
          refine ⟨hlen, hmz, hs, by omega, by omega, ?_⟩
          by_cases h6 : rd 2 file (rd 4 file 60 + 24) = 523
          · rw [if_pos h6] at h5; subst h5; exact h6
          · rw [if_neg h6] at h5; subst h5
            show _ = 267
            omega
        · rw [if_neg hr] at h2; cases h2
      · rw [if_neg hc, throwIf_bind_ok_iff] at hh
        exact absurd rfl hh.1
    · have hi : ¬ 0 ≤ int32 (rd 4 file 60) := by unfold int32; rw [if_neg hs]; omega
      rw [if_neg (fun h => hi h.1), throwIf_bind_ok_iff] at hh
      exact absurd rfl hh.1
  · rintro ⟨hlen, hmz, hs, hl, h1, h2⟩
    refine bind_ok_iff.mpr ⟨_, readDosHeader_iff.mpr ⟨hlen, hmz, rfl⟩, ?_⟩
    rw [hdos]
    dsimp only
    have hi : int32 (rd 4 file 60) = ((rd 4 file 60 : Nat) : Int) := by unfold int32; rw [if_pos (by omega)]
    rw [show ({ data := file, strict := strict, pos := 64 } : Stream) = st file strict 64 from rfl, hi,
      seekg_st_le (by omega), throwIf_bind_ok_iff, readOr_st, if_pos (by omega)]
    refine ⟨by simp [st], ?_⟩
    rw [ok_bind]
    dsimp only
    rw [throwIf_bind_ok_iff, throwIf_bind_ok_iff, rd_of_slice _ (by decide), rd_of_slice _ (by decide), Nat.add_zero]
    cases k
    · have h2 : _ = 267 := h2
      exact ⟨by omega, by omega, by rw [if_neg (by omega)]⟩
    · have h2 : _ = 523 := h2
      exact ⟨by omega, by omega, by rw [if_pos h2]⟩

theorem ntOf_magic (k : Kind) (pre : List (Nat × Nat)) (file : Bytes) (lf : Nat) :
    (ntOf k pre file lf).signature = rd 4 (slice file lf k.sizeofNtBase) 0 ∧
    (ntOf k pre file lf).magic = rd 2 (slice file lf k.sizeofNtBase) 24 := by
  simp only [ntOf, NtHdr.readDirs, NtHdr.clampRva, decNt, and_self]

theorem load_fileKind {k : Kind} {strict fromMem dbg : Bool} {pre : List (Nat × Nat)} {file : Bytes} {p : Image}
    (h : load k strict fromMem dbg pre file = .ok p) : FileKind file k := by
  obtain ⟨ok, h1, -, -, -, h2, -⟩ := load_fields h
  have hb : 120 ≤ k.sizeofNtBase := by cases k <;> decide
  have hn := ok.ntlen
  have hsig : p.nt.signature = rd 4 (slice file p.lfanew k.sizeofNtBase) 0 := (congrArg NtHdr.signature h1).trans (ntOf_magic _ _ _ _).1
  have hmag : p.nt.magic = rd 2 (slice file p.lfanew k.sizeofNtBase) 24 := (congrArg NtHdr.magic h1).trans (ntOf_magic _ _ _ _).2
  rw [rd_of_slice _ (by omega), Nat.add_zero, h2] at hsig
  rw [rd_of_slice _ (by omega), h2] at hmag
  refine ⟨ok.len, ok.mz, ok.lf, by omega, by rw [← hsig]; exact ok.sig, ?_⟩
  rw [← hmag, ok.nt.magic]
  cases k <;> rfl

theorem FileKind.unique {file : Bytes} {k l : Kind} (h : FileKind file k) (h' : FileKind file l) : k = l := by
  have := h.2.2.2.2.2; have := h'.2.2.2.2.2
  cases k <;> cases l <;> simp_all

/-- C73: `get_pe_type` answers exactly for the files that carry the signature and one of the two magic numbers,
    and answers with the kind that the magic number says. -/
theorem C73_kind (strict : Bool) (file : Bytes) (k : Kind) : peType strict file = .ok k ↔ FileKind file k :=
  peType_iff strict file k

/-- C73: `create_pe` opens exactly the files that one of the two loaders opens, with the same result. -/
theorem C73_factory (strict fromMem dbg : Bool) (file : Bytes) (p : Image) :
    createPe strict fromMem dbg file = .ok p ↔ ∃ k, load k strict fromMem dbg zeroDirs file = .ok p := by
  unfold createPe
  constructor
  · intro h
    obtain ⟨k, -, h⟩ := bind_ok_iff.mp h
    exact ⟨k, h⟩
  · rintro ⟨k, h⟩
    exact bind_ok_iff.mpr ⟨k, (peType_iff _ _ _).mpr (load_fileKind h), h⟩

/-- C73: a file is opened by at most one of the two loaders. -/
theorem C73_one_kind (k l : Kind) (strict fromMem dbg fromMem' dbg' : Bool) (file : Bytes) (p q : Image)
    (h : load k strict fromMem dbg zeroDirs file = .ok p) (h' : load l strict fromMem' dbg' zeroDirs file = .ok q) :
    k = l ∧ p.kind = k := by
  refine ⟨(load_fileKind h).unique (load_fileKind h'), (load_fields h).2.2.2.1⟩

/-- C73: a saved image can be opened without saying of which kind it is. -/
theorem C73_reopens (p q : Image) (strip chg sb strict dbg : Bool) (out : Bytes) (hv : p.Saveable strip chg sb)
    (h : p.rebuildPe strip chg sb = .ok (q, out)) :
    ∃ r, createPe strict false dbg out = .ok r ∧ r.kind = p.kind ∧ r.secs = q.secs := by
  obtain ⟨r, h1, h2, -, h3, -⟩ := C19_save_load p q strip chg sb strict dbg out zeroDirs rfl
    (by intro d hd; rw [List.eq_of_mem_replicate hd]; decide) hv h
  exact ⟨r, (C73_factory _ _ _ _ _).mpr ⟨_, h1⟩, h2, h3⟩

example : ∃ p, createPe true false true tinyGood = .ok p ∧ p.kind = .pe32 ∧ p.secs.length = 2 := by
  obtain ⟨p, h1, h2⟩ := exists_of_okAnd (x := createPe true false true tinyGood)
    (f := fun p => decide (p.kind = .pe32 ∧ p.secs.length = 2)) (by decide +kernel)
  exact ⟨p, h1, of_decide_eq_true h2⟩

/-- A file that is neither: a ROM image. -/
example : peType true (tinyGood.set (64 + 24) 7) = .error (.exn .peSignatureIncorrect) := by decide +kernel

/-- A 64-bit file. -/
example : ∃ f, FileKind f .pe64 ∧ peType false f = .ok .pe64 :=
  have h : peType false ([0x4d, 0x5a] ++ zeros 58 ++ leBytes 4 64 ++ leBytes 4 0x4550 ++ zeros 20 ++ leBytes 2 0x20b ++
    zeros 94) = .ok .pe64 := by decide +kernel
  ⟨_, (peType_iff _ _ _).mp h, h⟩

end PE
