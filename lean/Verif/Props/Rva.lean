/-
C05 - C09: addresses and address based access.
-/
import Verif.Lemmas.Rva
namespace PE

/-! ### C05: VA/RVA conversion is exact -/

/-- C05 (PE32, RVA to VA): succeeds exactly when the sum fits 32 bits and returns the sum. -/
theorem C05_rva_to_va_32 (p : Image) (hk : p.kind = .pe32) (hb : p.nt.imageBase < 2 ^ 32) (rva : Nat) :
    p.rvaToVa rva = if p.nt.imageBase + rva < 2 ^ 32 then .ok (p.nt.imageBase + rva)
      else .error (.exn .incorrectAddressConversion) := by
  have hw : w32 p.nt.imageBase = p.nt.imageBase := Nat.mod_eq_of_lt hb
  simp only [Image.rvaToVa, hk, Image.rvaToVa32, isSumSafe, hw, throwE, decide_eq_true_eq]
  unfold w32
  split <;> split
  · omega
  · rfl
  · rw [Nat.mod_eq_of_lt (by omega), Nat.add_comm]
  · omega

/-- C05 (PE32+, RVA to VA), for image bases that leave room for the rva below 2^64. The source has no
    overflow check here, see `C05_rva_to_va_64_unchecked`. -/
theorem C05_rva_to_va_64_partial (p : Image) (hk : p.kind = .pe64) (rva : Nat)
    (h : p.nt.imageBase + rva < 2 ^ 64) : p.rvaToVa rva = .ok (p.nt.imageBase + rva) := by
  simp only [Image.rvaToVa, hk, Image.rvaToVa64, w64]
  rw [Nat.mod_eq_of_lt (by omega), Nat.add_comm]

/-- C05 is false for PE32+ at the top of the address space: no exception, wrapped address. -/
theorem C05_rva_to_va_64_unchecked : ∃ (p : Image) (rva va : Nat), p.kind = .pe64 ∧
    p.nt.imageBase < 2 ^ 64 ∧ rva < 2 ^ 32 ∧ p.rvaToVa rva = .ok va ∧ va < p.nt.imageBase :=
  ⟨{ kind := .pe64, dos := [], lfanew := 0, nt := { imageBase := 0xFFFFFFFFFFFFF000 } }, 0x2000, 0x1000,
    by decide, by decide, by decide, by decide, by decide⟩

/-- C05 (VA to RVA, both kinds): with bound checking, conversion succeeds exactly for addresses in
    `[base, base + 2^32)` and returns the distance from the base. -/
theorem C05_va_to_rva (p : Image) (va : Nat) (hv : va < 2 ^ 64) (hb : p.nt.imageBase + 2 ^ 32 ≤ 2 ^ 64) :
    p.vaToRva va = if p.nt.imageBase ≤ va ∧ va < p.nt.imageBase + 2 ^ 32 then .ok (va - p.nt.imageBase)
      else .error (.exn .incorrectAddressConversion) := by
  have key : (if (true = true) ∧ sub64 va p.nt.imageBase > 4294967295 then
        (throwE .incorrectAddressConversion : Res Nat)
      else .ok (w32 (sub64 va p.nt.imageBase))) =
      if p.nt.imageBase ≤ va ∧ va < p.nt.imageBase + 2 ^ 32 then .ok (va - p.nt.imageBase)
      else .error (.exn .incorrectAddressConversion) := by
    simp only [sub64, w32, throwE, true_and]
    split <;> split
    · omega
    · rfl
    · congr 1; omega
    · omega
  unfold Image.vaToRva
  split
  · exact key
  · exact key

/-- C05 (inverse): whatever `rva_to_va` returns is converted back by `va_to_rva`. -/
theorem C05_round_trip (p : Image) (rva va : Nat) (hr : rva < 2 ^ 32)
    (hb : p.nt.imageBase + 2 ^ 32 ≤ 2 ^ 64) (h32 : p.kind = .pe32 → p.nt.imageBase < 2 ^ 32)
    (h : p.rvaToVa rva = .ok va) : p.vaToRva va = .ok rva := by
  have hva : va = p.nt.imageBase + rva := by
    cases hk : p.kind with
    | pe32 =>
      rw [C05_rva_to_va_32 p hk (h32 hk) rva] at h
      split at h
      · cases h; rfl
      · cases h
    | pe64 =>
      rw [C05_rva_to_va_64_partial p hk rva (by omega)] at h
      cases h; rfl
  subst hva
  rw [C05_va_to_rva p _ (by omega) hb, if_pos (by omega)]
  congr 1; omega

/-- C05 (inverse, other direction). -/
theorem C05_round_trip' (p : Image) (rva va : Nat) (hv : va < 2 ^ (8 * p.kind.ptr))
    (hb : p.nt.imageBase + 2 ^ 32 ≤ 2 ^ 64) (h32 : p.kind = .pe32 → p.nt.imageBase < 2 ^ 32)
    (h : p.vaToRva va = .ok rva) : p.rvaToVa rva = .ok va := by
  have hv64 : va < 2 ^ 64 := by
    cases hk : p.kind <;> simp [hk, Kind.ptr] at hv <;> omega
  rw [C05_va_to_rva p va hv64 hb] at h
  split at h
  · cases h
    cases hk : p.kind with
    | pe32 =>
      have := h32 hk
      simp [hk, Kind.ptr] at hv
      rw [C05_rva_to_va_32 p hk this _, if_pos (by omega)]
      congr 1; omega
    | pe64 =>
      rw [C05_rva_to_va_64_partial p hk _ (by omega)]
      congr 1; omega
  · cases h

example : ({ kind := .pe32, dos := [], lfanew := 0, nt := { imageBase := 0x400000 } } : Image).rvaToVa 0x1234
    = .ok 0x401234 := by decide

/-! ### C06: section lookup by RVA -/

/-- C06: the lookup returns the first section whose virtual range contains the address, and throws
    exactly if there is none. -/
theorem C06_section_lookup (p : Image) (ha : Pow2 p.nt.secAlign) (hf : ∀ s ∈ p.secs, s.Fits p.nt.secAlign)
    (rva : Nat) :
    (∀ s, p.sectionFromRva rva = .ok s ↔
      ∃ pre post, p.secs = pre ++ s :: post ∧ s.Covers p.nt.secAlign rva ∧
        ∀ t ∈ pre, ¬ t.Covers p.nt.secAlign rva) ∧
    (p.sectionFromRva rva = .error (.exn .noSectionFound) ↔
      ∀ s ∈ p.secs, ¬ s.Covers p.nt.secAlign rva) := by
  constructor
  · intro s
    rw [sectionFromRva_ok_iff, find?_split]
    constructor
    · rintro ⟨h1, pre, post, h2, h3⟩
      have hs : s ∈ p.secs := by simp [h2]
      refine ⟨pre, post, h2, (Sec.containsRva_iff ha (hf s hs) rva).mp h1, fun t ht hc => ?_⟩
      have := h3 t ht
      rw [(Sec.containsRva_iff ha (hf t (by simp [h2, ht])) rva).mpr hc] at this
      cases this
    · rintro ⟨pre, post, h2, h1, h3⟩
      have hs : s ∈ p.secs := by simp [h2]
      refine ⟨(Sec.containsRva_iff ha (hf s hs) rva).mpr h1, pre, post, h2, fun t ht => ?_⟩
      have := mt (Sec.containsRva_iff ha (hf t (by simp [h2, ht])) rva).mp (h3 t ht)
      simpa using this
  · unfold Image.sectionFromRva
    cases h : p.secs.find? (fun s => s.containsRva p.nt.secAlign rva) with
    | none =>
      simp only [throwE, true_iff]
      intro s hs hc
      have := List.find?_eq_none.mp h s hs
      rw [(Sec.containsRva_iff ha (hf s hs) rva).mpr hc] at this
      exact this rfl
    | some s =>
      simp only [reduceCtorEq, false_iff]
      intro hn
      exact hn s (List.mem_of_find?_eq_some h) ((Sec.containsRva_iff ha
        (hf s (List.mem_of_find?_eq_some h)) rva).mp (by simpa using List.find?_some h))

/-- C06 (uniqueness): in an image whose section ranges do not overlap, a section at any position that
    contains the address is the one returned. -/
theorem C06_unique (p : Image) (ha : Pow2 p.nt.secAlign) (hf : ∀ s ∈ p.secs, s.Fits p.nt.secAlign)
    (hd : VirtDisjoint p.nt.secAlign p.secs) (rva : Nat) (s : Sec) (hs : s ∈ p.secs)
    (hc : s.Covers p.nt.secAlign rva) : p.sectionFromRva rva = .ok s := by
  obtain ⟨pre, post, hsplit⟩ := List.append_of_mem hs
  refine ((C06_section_lookup p ha hf rva).1 s).mpr ⟨pre, post, hsplit, hc, fun t ht hct => ?_⟩
  unfold VirtDisjoint at hd
  rw [hsplit, List.pairwise_append] at hd
  have := hd.2.2 t ht s (by simp)
  unfold Sec.Covers at hc hct
  omega

/-- The limit of C06: a section whose range ends at 4 GiB is accepted by the header fields but its
    addresses are not found (the end of the range wraps to 0). -/
theorem C06_wrapping_section_not_found : ∃ (p : Image) (s : Sec) (rva : Nat), s ∈ p.secs ∧
    s.Covers p.nt.secAlign rva ∧ rva < 2 ^ 32 ∧
    p.sectionFromRva rva = .error (.exn .noSectionFound) :=
  ⟨{ kind := .pe32, dos := [], lfanew := 0, nt := { secAlign := 0x1000 }, secs := [{ va := 0xFFFFF000, vsize := 1 }] },
    { va := 0xFFFFF000, vsize := 1 }, 0xFFFFF004, by simp, by decide, by decide, by decide⟩

/-- A two-section image used as witness below. -/
def demoImage : Image :=
  { kind := .pe32, dos := createDos, lfanew := 0x80, hdrData := zeros 16,
    nt := { (createNt .pe32 0x1000 3) with sizeHeaders := 0x200, sizeImage := 0x3000, numSections := 2 },
    secs := [{ va := 0x1000, vsize := 0x1000, rawSize := 0x200, rawPtr := 0x200, data := List.replicate 8 1 },
             { va := 0x2000, vsize := 0x800, rawSize := 0x400, rawPtr := 0x400, data := List.replicate 16 2 }] }

theorem demo_fits : ∀ s ∈ demoImage.secs, s.Fits demoImage.nt.secAlign := by
  intro s hs
  simp only [demoImage, List.mem_cons, List.not_mem_nil, or_false] at hs
  rcases hs with rfl | rfl <;> constructor <;> decide

theorem demo_virtDisjoint : VirtDisjoint demoImage.nt.secAlign demoImage.secs := by
  simp only [VirtDisjoint, demoImage, List.pairwise_cons]
  refine ⟨fun t ht => ?_, by simp, List.Pairwise.nil⟩
  simp only [List.mem_singleton] at ht
  subst ht; left; decide

example : Pow2 demoImage.nt.secAlign := pow2_4096
example : demoImage.sectionFromRva 0x2010 = .ok (demoImage.secs[1]'(by decide)) := by
  apply C06_unique demoImage pow2_4096 demo_fits demo_virtDisjoint
  · exact List.getElem_mem _
  · decide

/-! ### C07: file offset / RVA conversions are inverse -/

theorem fileOffsetToSection_ok {p : Image} {off : Nat} {s : Sec} (h : p.fileOffsetToSection off = .ok s) :
    s ∈ p.secs ∧ s.rawPtr ≤ off ∧ off < s.rawPtr + s.rawSize := by
  unfold Image.fileOffsetToSection at h
  cases hf : p.secs.find? (fun s => s.containsOffset off) with
  | none => rw [hf] at h; simp at h
  | some t =>
    rw [hf] at h; cases h
    have := List.find?_some hf
    simp only [Sec.containsOffset, Bool.and_eq_true, decide_eq_true_eq] at this
    unfold w32 at this
    have h2 := Nat.mod_le (s.rawPtr + s.rawSize) 4294967296
    exact ⟨List.mem_of_find?_eq_some hf, this.1, by omega⟩

/-- C07: offset -> rva -> offset, for every offset inside the raw data of some section. -/
theorem C07_offset_rva_offset (p : Image) (ha : Pow2 p.nt.secAlign)
    (hf : ∀ s ∈ p.secs, s.Fits p.nt.secAlign) (hd : VirtDisjoint p.nt.secAlign p.secs)
    (hraw : ∀ s ∈ p.secs, s.rawSize ≤ s.span p.nt.secAlign ∧ s.rawPtr + s.rawSize < 2 ^ 32 ∧
      p.nt.sizeHeaders ≤ s.va)
    (off : Nat) (hoff : p.nt.sizeHeaders ≤ off)
    (hin : ∃ s ∈ p.secs, s.rawPtr ≤ off ∧ off < s.rawPtr + s.rawSize) :
    ∃ rva, p.fileOffsetToRva off = .ok rva ∧ p.rvaToFileOffset rva = .ok off ∧
      ∃ s ∈ p.secs, s.rawPtr ≤ off ∧ off < s.rawPtr + s.rawSize ∧ rva = s.va + (off - s.rawPtr) := by
  -- the section found
  obtain ⟨t, hts⟩ : ∃ t, p.fileOffsetToSection off = .ok t := by
    unfold Image.fileOffsetToSection
    cases hfd : p.secs.find? (fun s => s.containsOffset off) with
    | some t => exact ⟨t, rfl⟩
    | none =>
      obtain ⟨s, hs, h1, h2⟩ := hin
      have := List.find?_eq_none.mp hfd s hs
      have hr := (hraw s hs).2.1
      simp only [Sec.containsOffset, Bool.and_eq_true, decide_eq_true_eq, not_and] at this
      unfold w32 at this
      have := this h1
      omega
  obtain ⟨ht, h1, h2⟩ := fileOffsetToSection_ok hts
  obtain ⟨r1, r2, r3⟩ := hraw t ht
  have hfin := (hf t ht).fin
  have hrva : w32 (sub32 off t.rawPtr + t.va) = t.va + (off - t.rawPtr) := by
    unfold w32 sub32; omega
  refine ⟨t.va + (off - t.rawPtr), ?_, ?_, t, ht, h1, h2, rfl⟩
  · unfold Image.fileOffsetToRva
    rw [if_neg (by omega), hts]
    simp [hrva]
  · unfold Image.rvaToFileOffset
    rw [if_neg (by omega)]
    rw [C06_unique p ha hf hd _ t ht (by unfold Sec.Covers; omega)]
    simp only [ok_bind, sub32, w32]
    congr 1; omega

/-- C07: rva -> offset -> rva, for every rva inside the raw part of some section. -/
theorem C07_rva_offset_rva (p : Image) (ha : Pow2 p.nt.secAlign)
    (hf : ∀ s ∈ p.secs, s.Fits p.nt.secAlign) (hd : VirtDisjoint p.nt.secAlign p.secs)
    (hrd : RawDisjoint p.secs)
    (hraw : ∀ s ∈ p.secs, s.rawSize ≤ s.span p.nt.secAlign ∧ s.rawPtr + s.rawSize < 2 ^ 32 ∧
      (s.rawSize ≠ 0 → p.nt.sizeHeaders ≤ s.rawPtr))
    (rva : Nat) (hrva : p.nt.sizeHeaders ≤ rva) (s : Sec) (hs : s ∈ p.secs) (h1 : s.va ≤ rva)
    (h2 : rva < s.va + s.rawSize) :
    p.rvaToFileOffset rva = .ok (s.rawPtr + (rva - s.va)) ∧
      p.fileOffsetToRva (s.rawPtr + (rva - s.va)) = .ok rva := by
  obtain ⟨r1, r2, r3⟩ := hraw s hs
  have r3 := r3 (by omega)
  have hfin := (hf s hs).fin
  constructor
  · unfold Image.rvaToFileOffset
    rw [if_neg (by omega)]
    rw [C06_unique p ha hf hd _ s hs (by unfold Sec.Covers; omega)]
    simp only [ok_bind, sub32, w32]
    congr 1; omega
  · unfold Image.fileOffsetToRva
    rw [if_neg (by omega)]
    have : p.fileOffsetToSection (s.rawPtr + (rva - s.va)) = .ok s := by
      obtain ⟨pre, post, hsplit⟩ := List.append_of_mem hs
      unfold Image.fileOffsetToSection
      have : p.secs.find? (fun t => t.containsOffset (s.rawPtr + (rva - s.va))) = some s := by
        rw [find?_split]
        refine ⟨?_, pre, post, hsplit, fun t ht => ?_⟩
        · simp only [Sec.containsOffset, Bool.and_eq_true, decide_eq_true_eq]; unfold w32; omega
        · unfold RawDisjoint at hrd
          rw [hsplit, List.pairwise_append] at hrd
          have h3 := hrd.2.2 t ht s (by simp)
          have ht2 := (hraw t (by simp [hsplit, ht])).2.1
          simp only [Sec.containsOffset, Bool.and_eq_false_iff, decide_eq_false_iff_not]; unfold w32; omega
      rw [this]
    rw [this]
    simp only [ok_bind, sub32, w32]
    congr 1; omega

theorem demo_rawDisjoint : RawDisjoint demoImage.secs := by
  simp only [RawDisjoint, demoImage, List.pairwise_cons]
  refine ⟨fun t ht => ?_, by simp, List.Pairwise.nil⟩
  simp only [List.mem_singleton] at ht
  subst ht; left; decide

example : ∀ s ∈ demoImage.secs, s.rawSize ≤ s.span demoImage.nt.secAlign ∧ s.rawPtr + s.rawSize < 2 ^ 32 ∧
      demoImage.nt.sizeHeaders ≤ s.va ∧ (s.rawSize ≠ 0 → demoImage.nt.sizeHeaders ≤ s.rawPtr) := by
  intro s hs
  simp only [demoImage, List.mem_cons, List.not_mem_nil, or_false] at hs
  rcases hs with rfl | rfl <;> decide

/-! ### C08: typed reads stay inside the image and return the image's bytes -/

/-- What a section holds: its raw data, or its memory contents (raw data then zeros). -/
def Sec.contents (s : Sec) (t : DataType) (a : Nat) : Bytes :=
  match t with
  | .raw => s.data
  | .virt => s.memory a

theorem Sec.view_eq_contents {s : Sec} {a : Nat} (ha : Pow2 a) (hf : s.Fits a) (t : DataType) :
    s.view t a = s.contents t a := by
  cases t
  · rfl
  · exact Sec.virt_eq_memory ha hf

/-- C08 (safety): a typed read never commits undefined behaviour, for any image whatsoever. -/
theorem C08_read_is_safe (p : Image) (n rva : Nat) (t : DataType) (hdrs : Bool) (u : UB) :
    p.readT n rva t hdrs ≠ .error (.ub u) := readT_noUB p n rva t hdrs u

/-- C08 (exactness): a typed read returns `b` exactly if `b` is the `n` header bytes at `rva` (headers
    included and the value ends before the end of the headers), or else the `n` bytes of the first
    section containing `rva` - of its raw data, or of its memory contents in virtual mode - all of which
    exist. -/
theorem C08_read_value (p : Image) (ha : Pow2 p.nt.secAlign) (hf : ∀ s ∈ p.secs, s.Fits p.nt.secAlign)
    (n rva : Nat) (hr : rva < 2 ^ 32) (hn : n < 2 ^ 32) (t : DataType) (hdrs : Bool) (b : Bytes)
    (hh : p.hdrData.length < 2 ^ 32) :
    p.readT n rva t hdrs = .ok b ↔
      if hdrs = true ∧ rva + n < p.hdrData.length then b = (p.hdrData.drop rva).take n
      else ∃ pre s post, p.secs = pre ++ s :: post ∧ s.Covers p.nt.secAlign rva ∧
        (∀ t ∈ pre, ¬ t.Covers p.nt.secAlign rva) ∧
        rva - s.va + n ≤ (s.contents t p.nt.secAlign).length ∧
        b = ((s.contents t p.nt.secAlign).drop (rva - s.va)).take n := by
  have hsafe : (isSumSafe rva n = true ∧ rva + n < p.hdrData.length) ↔ rva + n < p.hdrData.length := by
    simp only [isSumSafe, decide_eq_true_eq]; omega
  unfold Image.readT
  simp only [hsafe]
  split
  · next hc =>
    rw [readN_ok (by omega)]
    simp only [Except.ok.injEq, slice]
    exact eq_comm
  · next hc =>
    rw [bind_ok_iff]
    constructor
    · rintro ⟨s, hs, h⟩
      obtain ⟨pre, post, h1, h2, h3⟩ := ((C06_section_lookup p ha hf rva).1 s).mp hs
      have hsm : s ∈ p.secs := by simp [h1]
      have hle : s.va ≤ rva := h2.1
      have hview := Sec.view_eq_contents ha (hf s hsm) t
      refine ⟨pre, s, post, h1, h2, h3, ?_⟩
      rw [sub32_of_le hle hr, hview] at h
      split at h
      · simp at h
      · next hlen =>
        rw [readN_ok (by omega)] at h
        cases h
        exact ⟨by omega, rfl⟩
    · rintro ⟨pre, s, post, h1, h2, h3, h4, h5⟩
      have hsm : s ∈ p.secs := by simp [h1]
      have hle : s.va ≤ rva := h2.1
      have hview := Sec.view_eq_contents ha (hf s hsm) t
      refine ⟨s, ((C06_section_lookup p ha hf rva).1 s).mpr ⟨pre, post, h1, h2, h3⟩, ?_⟩
      rw [sub32_of_le hle hr, hview, if_neg (by omega), readN_ok (by omega), h5]
      rfl

example : demoImage.readT 4 0x2003 .raw false = .ok [2, 2, 2, 2] := by decide

/-! ### C09: the reported data length is safe to use -/

/-- C09: if `section_data_length_from_rva(rva, rva, ...)` reports `n`, every one of the `n` bytes at the
    pointer returned for the same arguments exists. Holds for every image. -/
theorem C09_length_is_safe (p : Image) (rva : Nat) (t : DataType) (hdrs : Bool) (n : Nat)
    (hlen : p.dataLenFrom rva rva t hdrs = .ok n) (buf : Bytes) (off : Nat)
    (hptr : p.ptrFromRva rva t hdrs = .ok (buf, off)) : ∀ k, k < n → off + k < buf.length := by
  unfold Image.dataLenFrom at hlen
  unfold Image.ptrFromRva at hptr
  intro k hk
  by_cases hc : hdrs = true ∧ rva < p.hdrData.length
  · rw [if_pos hc] at hptr
    rw [if_pos ⟨hc.1, hc.2, hc.2⟩] at hlen
    cases hptr
    simp only [Except.ok.injEq, w32] at hlen
    have := Nat.mod_le (p.hdrData.length - rva) 4294967296
    omega
  · rw [if_neg hc] at hptr
    rw [if_neg (by rintro ⟨h1, h2, _⟩; exact hc ⟨h1, h2⟩)] at hlen
    obtain ⟨s, hs, hptr⟩ := bind_ok_iff.mp hptr
    rw [hs] at hlen
    simp only [ok_bind] at hlen
    cases hptr
    split at hlen
    · simp at hlen
    · next hva =>
      simp only [Except.ok.injEq, w32] at hlen
      have h1 := Nat.mod_le (s.viewLen t p.nt.secAlign + s.va - rva) 4294967296
      have h2 : s.viewLen t p.nt.secAlign ≤ (s.view t p.nt.secAlign).length := by
        cases t
        · exact Nat.le_refl _
        · simp [Sec.viewLen, Sec.view, Sec.virt]; omega
      omega

/-- C09 (section variant), for sections whose virtual range is at most 2 GiB (the loader's limit). The
    bound is needed, see `C09_section_length_unsafe_above_2gb`. -/
theorem C09_section_length_is_safe_partial (p : Image) (s : Sec) (rva : Nat) (t : DataType) (n : Nat)
    (hr : rva < 2 ^ 32) (h2gb : s.alignedVS p.nt.secAlign ≤ 2 ^ 31)
    (hlen : p.dataLenSec s rva t = .ok n) (buf : Bytes) (off : Nat)
    (hptr : p.ptrFromRvaSec s rva t = .ok (buf, off)) : ∀ k, k < n → off + k < buf.length := by
  unfold Image.dataLenSec at hlen
  unfold Image.ptrFromRvaSec at hptr
  intro k hk
  by_cases hc : s.containsRva p.nt.secAlign rva = true
  · rw [if_pos hc] at hlen hptr
    cases hptr
    obtain ⟨c1, c2⟩ := Sec.containsRva_le hc
    have h2 : s.viewLen t p.nt.secAlign ≤ (s.view t p.nt.secAlign).length := by
      cases t
      · exact Nat.le_refl _
      · simp [Sec.viewLen, Sec.view, Sec.virt]; omega
    dsimp only [sub32, w32] at hlen
    split at hlen
    · cases hlen; omega
    · next h3 =>
      simp only [Except.ok.injEq] at hlen
      omega
  · rw [if_neg hc] at hlen
    simp at hlen

/-- C09 (section variant) is false above 2 GiB: a section with one raw byte and a huge virtual size
    reports data that is not there (the 32-bit signed length wraps). -/
theorem C09_section_length_unsafe_above_2gb : ∃ (p : Image) (s : Sec) (rva n : Nat) (buf : Bytes)
    (off : Nat), rva < 2 ^ 32 ∧ p.dataLenSec s rva .raw = .ok n ∧
    p.ptrFromRvaSec s rva .raw = .ok (buf, off) ∧ 0 < n ∧ buf.length < off :=
  ⟨{ kind := .pe32, dos := [], lfanew := 0, nt := { secAlign := 0x1000 } },
   { va := 0x1000, vsize := 0xC0000000, rawSize := 1, data := [1] }, 0xB0000000, 0x50001001, [1], 0xAFFFF000,
   by decide, by decide, by decide, by decide, by decide⟩

example : demoImage.dataLenFrom 0x2003 0x2003 .raw false = .ok 0xD := by decide

end PE
