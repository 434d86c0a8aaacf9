/-
C20, C21, C22: image checksum.
-/
import Verif.Lemmas.Checksum
namespace PE

/-- The file has a complete DOS header with the MZ signature (otherwise the call throws). -/
def HasDosHeader (file : Bytes) : Prop := 64 ≤ file.length ∧ rd 2 file 0 = 0x5a4d

instance (file : Bytes) : Decidable (HasDosHeader file) := inferInstanceAs (Decidable (_ ∧ _))

theorem calculateChecksum_eq {file : Bytes} (h : HasDosHeader file) :
    calculateChecksum file =
      .ok (w32 (csFinish (csLoop (int32 (rd 4 file 60) + 88) 0 file 0) + w32 file.length)) := by
  have hs : rd 4 (slice file 0 64) 60 = rd 4 file 60 := by
    unfold rd; rw [slice_slice (by decide)]
  unfold calculateChecksum readDosHeader
  rw [throwIf_neg (by have := h.1; omega), ok_bind, throwIf_neg (by simp [h.2]), ok_bind, ok_bind, hs]

/-- The call throws exactly if there is no DOS header. -/
theorem C21_checksum_total (file : Bytes) : (∃ r, calculateChecksum file = .ok r) ↔ HasDosHeader file := by
  constructor
  · rintro ⟨r, hr⟩
    unfold calculateChecksum readDosHeader at hr
    obtain ⟨hdr, h1, -⟩ := bind_ok_iff.mp hr
    obtain ⟨_, h2, h3⟩ := bind_ok_iff.mp h1
    obtain ⟨_, h4, -⟩ := bind_ok_iff.mp h3
    rw [throwIf_ok_iff] at h2 h4
    exact ⟨by omega, by simpa using h4⟩
  · intro h; exact ⟨_, calculateChecksum_eq h⟩

/-- C20: the checksum does not depend on the four bytes of the CheckSum field (at PE header offset + 88),
    for every PE header offset that is non-negative and DWORD aligned, as in every loadable image. -/
theorem C20_field_independent (file d : Bytes) (hd : d.length = 4)
    (hlf : rd 4 file 60 < 2 ^ 31) (hal : rd 4 file 60 % 4 = 0) (hfit : rd 4 file 60 + 88 + 4 ≤ file.length) :
    calculateChecksum (patch file (rd 4 file 60 + 88) d) = calculateChecksum file := by
  obtain ⟨q, hq⟩ : ∃ q, rd 4 file 60 = 4 * q := ⟨_, (Nat.mul_div_cancel' (Nat.dvd_of_mod_eq_zero hal)).symm⟩
  have hlen := patch_length (b := file) (d := d) (off := rd 4 file 60 + 88) (by omega)
  have hrd : ∀ w o, o + w ≤ 88 → rd w (patch file (rd 4 file 60 + 88) d) o = rd w file o := by
    intro w o h
    unfold rd
    rw [slice_patch_before (by unfold rd at hfit; omega) (by omega)]
  have h1 := hrd 2 0 (by decide)
  have h2 := hrd 4 60 (by decide)
  by_cases h : HasDosHeader file
  · have h' : HasDosHeader (patch file (rd 4 file 60 + 88) d) := ⟨by rw [hlen]; exact h.1, by rw [h1]; exact h.2⟩
    rw [calculateChecksum_eq h, calculateChecksum_eq h', h2, hlen]
    have hpos : int32 (rd 4 file 60) + 88 = ((0 + 4 * (q + 22) : Nat) : Int) := by
      unfold int32; rw [if_pos (by omega)]; omega
    rw [hpos]
    have := csLoop_patch (q + 22) 0 file d 0 hd (by omega)
    rw [show rd 4 file 60 + 88 = 4 * (q + 22) by omega, this]
  · unfold calculateChecksum readDosHeader
    by_cases h64 : file.length < 64
    · rw [throwIf_pos h64, throwIf_pos (by omega)]; rfl
    · have hm : rd 2 file 0 ≠ 0x5a4d := fun hm => h ⟨by omega, hm⟩
      rw [throwIf_neg h64, throwIf_neg (by omega), ok_bind, ok_bind, throwIf_pos hm,
        throwIf_pos (by rw [h1]; exact hm)]
      rfl

/-- C21: checksum = file size + the 16-bit end-around-carry sum of the words of the file, with the
    CheckSum field counted as zero. (If the PE header offset is such that the field is not on a
    DWORD boundary inside the file, no word is skipped.) -/
theorem C21_checksum_value (file : Bytes) (r : Nat) (h : calculateChecksum file = .ok r) :
    ∃ s, r = (s + file.length) % 2 ^ 32 ∧ s < 65536 ∧
      (let pos := int32 (rd 4 file 60) + 88
       let counted := if 0 ≤ pos ∧ pos % 4 = 0 then zeroField file pos.toNat else file
       s % 65535 = wordSum counted % 65535 ∧ (s = 0 ↔ wordSum counted = 0)) := by
  have hd := (C21_checksum_total file).mp ⟨r, h⟩
  rw [calculateChecksum_eq hd] at h
  injection h with h
  refine ⟨csFinish (csLoop (int32 (rd 4 file 60) + 88) 0 file 0), ?_, ?_⟩
  · rw [← h]; simp [w32]
  · generalize int32 (rd 4 file 60) + 88 = pos
    have h1 := csLoop_spec pos 0 file 0 (by decide)
    have h2 := csFinish_spec h1.1
    refine ⟨h2.1, ?_⟩
    dsimp only
    split
    · next hp =>
      obtain ⟨n, hn⟩ : ∃ n : Nat, pos.toNat = 4 * n := ⟨pos.toNat / 4, by omega⟩
      have h3 := dsum_field n 0 file
      have e : ((0 + 4 * n : Nat) : Int) = pos := by omega
      rw [e, ← hn] at h3
      omega
    · next hp =>
      have h3 := dsum_none pos 0 file (by omega)
      omega

/-- C22: a change of one DWORD at a DWORD position, not in the CheckSum field and not in the PE header
    offset, by an amount that is not a multiple of 65535, changes the checksum. -/
theorem C22_single_word_change (pre d d' post : Bytes) (n r r' : Nat) (hpre : pre.length = 4 * n)
    (hd : d.length = 4) (hd' : d'.length = 4) (hn : n ≠ 15)
    (hfield : (pre.length : Int) ≠ int32 (rd 4 (pre ++ d ++ post) 60) + 88)
    (hdiff : fromLE d % 65535 ≠ fromLE d' % 65535)
    (h : calculateChecksum (pre ++ d ++ post) = .ok r)
    (h' : calculateChecksum (pre ++ d' ++ post) = .ok r') : r ≠ r' := by
  have hb := (C21_checksum_total _).mp ⟨r, h⟩
  have hb' := (C21_checksum_total _).mp ⟨r', h'⟩
  rw [calculateChecksum_eq hb] at h
  rw [calculateChecksum_eq hb'] at h'
  -- the header offset is the same in both files
  have hrd : rd 4 (pre ++ d' ++ post) 60 = rd 4 (pre ++ d ++ post) 60 := by
    by_cases hlt : n < 15
    · rw [rd_skip (by simp; omega), rd_skip (by simp; omega)]
      simp [hd, hd']
    · rw [List.append_assoc, List.append_assoc, rd_left (by omega), rd_left (by omega)]
  rw [hrd] at h'
  revert hfield h h'
  generalize int32 (rd 4 (pre ++ d ++ post) 60) + 88 = pos
  intro hfield h h'
  have s1 := csLoop_spec pos 0 (pre ++ d ++ post) 0 (by decide)
  have s2 := csLoop_spec pos 0 (pre ++ d' ++ post) 0 (by decide)
  have f1 := csFinish_spec s1.1
  have f2 := csFinish_spec s2.1
  have a1 : dsum pos 0 (pre ++ d ++ post) = dsum pos 0 pre + (fromLE d + dsum pos (0 + 4 * n + 4 * 1) post) := by
    rw [List.append_assoc, dsum_append pos n 0 pre _ hpre, dsum_append pos 1 _ d post (by omega),
      dsum_chunk pos _ d hd (by omega)]
  have a2 : dsum pos 0 (pre ++ d' ++ post) = dsum pos 0 pre + (fromLE d' + dsum pos (0 + 4 * n + 4 * 1) post) := by
    rw [List.append_assoc, dsum_append pos n 0 pre _ hpre, dsum_append pos 1 _ d' post (by omega),
      dsum_chunk pos _ d' hd' (by omega)]
  injection h with h
  injection h' with h'
  have hl : (pre ++ d' ++ post).length = (pre ++ d ++ post).length := by simp [hd, hd']
  rw [hl] at h'
  have x1 : csFinish (csLoop pos 0 (pre ++ d ++ post) 0) % 65535 =
      (dsum pos 0 pre + (fromLE d + dsum pos (0 + 4 * n + 4 * 1) post)) % 65535 := by
    rw [f1.2.1, s1.2.1, a1, Nat.zero_add]
  have x2 : csFinish (csLoop pos 0 (pre ++ d' ++ post) 0) % 65535 =
      (dsum pos 0 pre + (fromLE d' + dsum pos (0 + 4 * n + 4 * 1) post)) % 65535 := by
    rw [f2.2.1, s2.2.1, a2, Nat.zero_add]
  have b1 := f1.1
  have b2 := f2.1
  clear f1 f2 s1 s2 a1 a2 hrd hl hb hb' hn hpre hfield
  revert h h' x1 x2 b1 b2
  generalize csFinish (csLoop pos 0 (pre ++ d ++ post) 0) = X
  generalize csFinish (csLoop pos 0 (pre ++ d' ++ post) 0) = X'
  generalize dsum pos (0 + 4 * n + 4 * 1) post = B
  generalize dsum pos 0 pre = A
  generalize w32 (pre ++ d ++ post).length = L
  unfold w32
  intro h h' x1 x2 b1 b2 hrr
  have hx : X = X' := by omega
  rw [hx] at x1
  omega

/-- A minimal file with a DOS header (PE header offset 0x40) used as witness. -/
def demoFile : Bytes := [0x4d, 0x5a] ++ zeros 58 ++ [0x40, 0, 0, 0] ++ zeros 88 ++ [1, 2, 3, 4] ++ [7, 8]

example : HasDosHeader demoFile ∧ rd 4 demoFile 60 = 0x40 ∧ rd 4 demoFile 60 % 4 = 0 ∧
    rd 4 demoFile 60 + 88 + 4 ≤ demoFile.length := by decide +kernel
example : ∃ pre d d' post, demoFile = pre ++ d ++ post ∧ pre.length = 4 * 16 ∧ d.length = 4 ∧ d'.length = 4 ∧
    fromLE d % 65535 ≠ fromLE d' % 65535 :=
  ⟨demoFile.take 64, (demoFile.drop 64).take 4, [1, 0, 0, 0], demoFile.drop 68, by decide, by decide, by decide,
    by decide, by decide⟩

end PE
