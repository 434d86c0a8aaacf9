/-
Helper lemmas about loading.
-/
import Verif.Model.Load
import Verif.Lemmas.Rva
namespace PE

/-- A good stream. -/
def st (file : Bytes) (strict : Bool) (pos : Nat) : Stream := { data := file, strict := strict, pos := pos }

theorem seekg_st (file : Bytes) (strict : Bool) (p : Nat) (o : Int) :
    (st file strict p).seekg o = if 0 ≤ o ∧ (strict = true → o ≤ file.length) then st file strict o.toNat
      else { st file strict p with fail := true } := by
  unfold Stream.seekg st
  simp only [Bool.false_eq_true, if_false]

theorem seekg_st_nat (file : Bytes) (strict : Bool) (p o : Nat) :
    (st file strict p).seekg o = if strict = true → o ≤ file.length then st file strict o
      else { st file strict p with fail := true } := by
  rw [seekg_st]
  have : (0 ≤ (o : Int) ∧ (strict = true → (o : Int) ≤ (file.length : Int))) ↔ (strict = true → o ≤ file.length) := by
    constructor
    · rintro ⟨_, h⟩ hs; have := h hs; omega
    · intro h; exact ⟨by omega, fun hs => by have := h hs; omega⟩
  simp only [this]
  rfl

theorem seekg_st_le {file : Bytes} {strict : Bool} {p o : Nat} (h : o ≤ file.length) :
    (st file strict p).seekg o = st file strict o := by
  rw [seekg_st_nat, if_pos (fun _ => h)]

theorem read_st (file : Bytes) (strict : Bool) (p n : Nat) :
    (st file strict p).read n = if n ≤ file.length - p then (slice file p n, st file strict (p + n))
      else (slice file p n, { st file strict (p + (slice file p n).length) with eof := true, fail := true }) := by
  unfold Stream.read st
  simp only [Bool.false_eq_true, or_self, if_false]
  have := slice_length file p n
  by_cases h : n ≤ file.length - p
  · rw [if_pos h, if_neg (by omega)]
  · rw [if_neg h, if_pos (by omega)]

theorem readOr_st (file : Bytes) (strict : Bool) (p n : Nat) (e : Err) :
    (st file strict p).readOr n e = if n ≤ file.length - p then .ok (slice file p n, st file strict (p + n))
      else throwE e := by
  unfold Stream.readOr
  rw [read_st]
  by_cases h : n ≤ file.length - p
  · rw [if_pos h, if_pos h]; rfl
  · rw [if_neg h, if_neg h]; rfl

/-- Raw size after the correction of `read_pe`. -/
def fixRaw (h : NtHdr) (s : Sec) : Sec :=
  if alignUp s.rawSize h.fileAlign > alignUp s.vsize h.secAlign then { s with rawSize := s.vsize } else s

def rawOff (h : NtHdr) (fromMem : Bool) (s : Sec) : Nat :=
  if fromMem then alignDown s.va h.secAlign else alignDown s.rawPtr h.fileAlign

/-- The section with its raw bytes. -/
def rawSec (h : NtHdr) (fromMem : Bool) (file : Bytes) (s : Sec) : Sec :=
  { s with data := slice file (rawOff h fromMem s) s.rawSize }

/-- The conditions on the raw data of a section. -/
structure RawOk (h : NtHdr) (strict fromMem : Bool) (file : Bytes) (s : Sec) : Prop where
  virt : w32 (s.va + alignUp s.vsize h.secAlign) ≤ alignUp h.sizeImage h.secAlign
  raw : w32 (alignDown s.rawPtr h.fileAlign + s.rawSize) ≤ w32 file.length
  seek : strict = true → rawOff h fromMem s ≤ file.length
  read : s.rawSize ≤ file.length - rawOff h fromMem s

theorem loadRaw_iff {h : NtHdr} {file : Bytes} {strict fromMem : Bool} {p : Nat} {s s' : Sec} {f' : Stream} :
    loadRaw h file.length fromMem (st file strict p) s = .ok (s', f') ↔
      RawOk h strict fromMem file (fixRaw h s) ∧
      s' = rawSec h fromMem file (fixRaw h s) ∧
      f' = st file strict (rawOff h fromMem (fixRaw h s) + (fixRaw h s).rawSize) := by
  unfold loadRaw
  dsimp only
  rw [show (if alignUp s.rawSize h.fileAlign > alignUp s.vsize h.secAlign then { s with rawSize := s.vsize } else s) =
    fixRaw h s from rfl]
  generalize fixRaw h s = t
  rw [show (if fromMem = true then alignDown t.va h.secAlign else alignDown t.rawPtr h.fileAlign) = rawOff h fromMem t from rfl]
  rw [throwIf_bind_ok_iff, throwIf_bind_ok_iff]
  by_cases hs : strict = true → rawOff h fromMem t ≤ file.length
  · rw [seekg_st_nat, if_pos hs]
    rw [read_st]
    by_cases hr : t.rawSize ≤ file.length - rawOff h fromMem t
    · rw [if_pos hr, throwIf_bind_ok_iff]
      simp only [st, Except.ok.injEq, Prod.mk.injEq]
      constructor
      · rintro ⟨h1, h2, h3, h4, h5⟩
        exact ⟨⟨by omega, by omega, hs, hr⟩, h4.symm, h5.symm⟩
      · rintro ⟨hk, h4, h5⟩
        have := hk.virt
        have := hk.raw
        exact ⟨by omega, by simp, by simp, h4.symm, h5.symm⟩
    · rw [if_neg hr, throwIf_bind_ok_iff]
      constructor
      · rintro ⟨h1, h2, h3, h4⟩
        exact absurd rfl h3
      · rintro ⟨hk, -⟩
        exact absurd hk.read hr
  · rw [seekg_st_nat, if_neg hs]
    constructor
    · rintro ⟨h1, h2, -⟩
      exact absurd rfl h2
    · rintro ⟨hk, -⟩
      exact absurd hk.seek hs

/-- The header checks of a section. -/
def SecHdrOk (s : Sec) : Prop :=
  ¬ (s.rawSize = 0 ∧ s.vsize = 0) ∧ s.va + s.vsize < 4294967296 ∧ s.vsize ≤ 2147483648 ∧
  s.rawPtr + s.rawSize < 4294967296 ∧ s.rawSize ≤ 2147483648

theorem isSumSafe_iff {a b : Nat} (hb : b < 4294967296) : isSumSafe a b = false ↔ ¬ a + b < 4294967296 := by
  unfold isSumSafe
  rw [decide_eq_false_iff_not]
  omega

theorem checkSec_iff {s : Sec} (h1 : s.vsize < 4294967296) (h2 : s.rawSize < 4294967296) :
    checkSec s = .ok () ↔ SecHdrOk s := by
  unfold checkSec
  rw [throwIf_bind_ok_iff]
  unfold throwIf SecHdrOk
  have e1 := isSumSafe_iff (a := s.va) h1
  have e2 := isSumSafe_iff (a := s.rawPtr) h2
  split
  · next h => simp only [e1, e2] at h; simp [throwE]; omega
  · next h => simp only [e1, e2] at h; simp; omega

theorem decSec_lt (b : Bytes) : (decSec b).vsize < 4294967296 ∧ (decSec b).rawSize < 4294967296 ∧
    (decSec b).va < 4294967296 ∧ (decSec b).rawPtr < 4294967296 :=
  ⟨rd_lt 4 b 8, rd_lt 4 b 16, rd_lt 4 b 12, rd_lt 4 b 20⟩

/-- The section object made from a section header and the file. -/
def mkSec (h : NtHdr) (fromMem : Bool) (file : Bytes) (s : Sec) : Sec :=
  if s.rawSize ≠ 0 then rawSec h fromMem file (fixRaw h s) else s

/-- The conditions under which the section with header `s` is accepted. -/
structure SecOk (h : NtHdr) (strict fromMem : Bool) (file : Bytes) (s : Sec) : Prop where
  hdr : SecHdrOk s
  raw : s.rawSize ≠ 0 → RawOk h strict fromMem file (fixRaw h s)
  fin : w32 ((mkSec h fromMem file s).va + (mkSec h fromMem file s).alignedVS h.secAlign) ≤ alignUp h.sizeImage h.secAlign

theorem loadSec_iff {h : NtHdr} {file : Bytes} {strict fromMem : Bool} {p last last' : Nat} {s : Sec} {f' : Stream} :
    loadSec h file.length fromMem (st file strict p) last = .ok (s, last', f') ↔
      p + 40 ≤ file.length ∧ SecOk h strict fromMem file (decSec (slice file p 40)) ∧
      s = mkSec h fromMem file (decSec (slice file p 40)) ∧
      last' = (if (decSec (slice file p 40)).rawSize ≠ 0 then (decSec (slice file p 40)).rawSize else last) ∧
      f' = st file strict (p + 40) := by
  unfold loadSec
  rw [readOr_st]
  by_cases hp : ¬ 40 ≤ file.length - p
  · rw [if_neg hp]
    constructor
    · intro h; cases h
    · rintro ⟨h1, -⟩; omega
  replace hp : 40 ≤ file.length - p := by omega
  rw [if_pos hp, ok_bind]
  have hpos : p + 40 ≤ file.length := by omega
  obtain ⟨hv, hr, -, -⟩ := decSec_lt (slice file p 40)
  dsimp only
  generalize decSec (slice file p 40) = t at *
  rw [bind_ok_iff]
  by_cases hraw : t.rawSize ≠ 0
  · simp only [if_pos hraw]
    constructor
    · rintro ⟨_, h1, h2⟩
      obtain ⟨⟨s1, f1⟩, h2, h3⟩ := bind_ok_iff.mp h2
      obtain ⟨h4, rfl, rfl⟩ := loadRaw_iff.mp h2
      rw [throwIf_bind_ok_iff] at h3
      obtain ⟨h5, h6⟩ := h3
      simp only [Except.ok.injEq, Prod.mk.injEq] at h6
      obtain ⟨rfl, rfl, rfl⟩ := h6
      have hm : mkSec h fromMem file t = rawSec h fromMem file (fixRaw h t) := by
        unfold mkSec; rw [if_pos hraw]
      refine ⟨hpos, ⟨(checkSec_iff hv hr).mp h1, fun _ => h4, ?_⟩, hm.symm, rfl, ?_⟩
      · rw [hm]; dsimp only at h5; omega
      · exact seekg_st_le hpos
    · rintro ⟨-, h1, rfl, rfl, rfl⟩
      have hm : mkSec h fromMem file t = rawSec h fromMem file (fixRaw h t) := by
        unfold mkSec; rw [if_pos hraw]
      refine ⟨(), (checkSec_iff hv hr).mpr h1.hdr, ?_⟩
      rw [loadRaw_iff.mpr ⟨h1.raw hraw, rfl, rfl⟩, ok_bind]
      have hf := h1.fin
      rw [hm] at hf ⊢
      rw [throwIf_bind_ok_iff]
      refine ⟨by dsimp only; omega, ?_⟩
      dsimp only
      congr 3
      exact seekg_st_le hpos
  · simp only [if_neg hraw, ok_bind]
    have hm : mkSec h fromMem file t = t := by unfold mkSec; rw [if_neg hraw]
    constructor
    · rintro ⟨_, h1, h3⟩
      rw [throwIf_bind_ok_iff] at h3
      obtain ⟨h5, h6⟩ := h3
      simp only [Except.ok.injEq, Prod.mk.injEq] at h6
      obtain ⟨rfl, rfl, rfl⟩ := h6
      refine ⟨hpos, ⟨(checkSec_iff hv hr).mp h1, fun h => absurd h hraw, ?_⟩, hm.symm, rfl, seekg_st_le hpos⟩
      rw [hm]; omega
    · rintro ⟨-, h1, rfl, rfl, rfl⟩
      refine ⟨(), (checkSec_iff hv hr).mpr h1.hdr, ?_⟩
      have hf := h1.fin
      rw [hm] at hf ⊢
      rw [throwIf_bind_ok_iff]
      refine ⟨by omega, ?_⟩
      congr 3
      exact seekg_st_le hpos

/-- The `i`-th section header of the table at `p`. -/
def hdrAt (file : Bytes) (p i : Nat) : Sec := decSec (slice file (p + 40 * i) 40)

/-- The last non-zero recorded raw size. -/
def lastRawOf : List Nat → Nat → Nat
  | [], last => last
  | r :: rs, last => lastRawOf rs (if r ≠ 0 then r else last)

theorem loadSecs_iff {h : NtHdr} {file : Bytes} {strict fromMem : Bool} {n p last last' : Nat} {secs : List Sec}
    {f' : Stream} :
    loadSecs h file.length fromMem n (st file strict p) last = .ok (secs, last', f') ↔
      (∀ i, i < n → p + 40 * i + 40 ≤ file.length ∧ SecOk h strict fromMem file (hdrAt file p i)) ∧
      secs = (List.range n).map (fun i => mkSec h fromMem file (hdrAt file p i)) ∧
      last' = lastRawOf ((List.range n).map (fun i => (hdrAt file p i).rawSize)) last ∧
      f' = st file strict (p + 40 * n) := by
  induction n generalizing p last secs last' f' with
  | zero =>
    unfold loadSecs
    simp only [Except.ok.injEq, Prod.mk.injEq]
    constructor
    · rintro ⟨rfl, rfl, rfl⟩; exact ⟨fun i hi => by omega, rfl, rfl, rfl⟩
    · rintro ⟨-, rfl, rfl, rfl⟩; exact ⟨rfl, rfl, rfl⟩
  | succ n ih =>
    have hshift : ∀ i, hdrAt file (p + 40) i = hdrAt file p (i + 1) := by
      intro i; unfold hdrAt; congr 2; omega
    unfold loadSecs
    rw [List.range_succ_eq_map]
    simp only [List.map_cons, List.map_map, Function.comp_def]
    constructor
    · intro hh
      obtain ⟨⟨s, l1, f1⟩, h1, h2⟩ := bind_ok_iff.mp hh
      obtain ⟨a1, a2, a3, a4, rfl⟩ := loadSec_iff.mp h1
      obtain ⟨⟨rest, l2, f2⟩, h3, h4⟩ := bind_ok_iff.mp h2
      obtain ⟨b1, b2, b3, rfl⟩ := ih.mp h3
      simp only [Except.ok.injEq, Prod.mk.injEq] at h4
      obtain ⟨rfl, rfl, rfl⟩ := h4
      refine ⟨?_, ?_, ?_, ?_⟩
      · intro i hi
        cases i with
        | zero => exact ⟨by omega, a2⟩
        | succ i =>
          have := b1 i (by omega)
          rw [hshift] at this
          exact ⟨by omega, this.2⟩
      · rw [a3, b2]
        simp only [hshift]
        rfl
      · rw [b3, a4]
        simp only [hshift]
        rfl
      · unfold st; congr 1; omega
    · rintro ⟨h1, rfl, rfl, rfl⟩
      have h0 := h1 0 (by omega)
      rw [(loadSec_iff (p := p)).mpr ⟨by omega, h0.2, rfl, rfl, rfl⟩, ok_bind]
      dsimp only
      rw [ih.mpr ⟨?_, rfl, rfl, rfl⟩, ok_bind]
      · simp only [hshift]
        show Except.ok (_, _, _) = Except.ok (_, _, _)
        congr 3
        unfold st; congr 1; omega
      · intro i hi
        have := h1 (i + 1) (by omega)
        rw [hshift]
        exact ⟨by omega, this.2⟩

/-- The NT headers as found at `lf` in the file. -/
def ntOf (k : Kind) (pre : List (Nat × Nat)) (file : Bytes) (lf : Nat) : NtHdr :=
  let h := (decNt k (slice file lf k.sizeofNtBase) pre).clampRva
  h.readDirs (slice file (lf + k.sizeofNtBase) (8 * h.numRva))

theorem readDirs_none (h : NtHdr) (b : Bytes) (h0 : h.numRva = 0) : h.readDirs b = h := by
  unfold NtHdr.readDirs
  have : decDirs b h.numRva ++ h.dirs.drop h.numRva = h.dirs := by rw [h0]; simp [decDirs]
  rw [this]

theorem readDirs_signature (h : NtHdr) (b : Bytes) : (h.clampRva.readDirs b).signature = h.signature := rfl
theorem readDirs_numRva (h : NtHdr) (b : Bytes) : (h.clampRva.readDirs b).numRva = h.clampRva.numRva := rfl

theorem int32_pos {x : Nat} (h : x < 2147483648) : int32 x = x := by unfold int32; rw [if_pos h]
theorem int32_neg {x : Nat} (h : ¬ x < 2147483648) (h2 : x < 4294967296) : int32 x < 0 := by
  unfold int32; rw [if_neg h]; omega

theorem loadNt_iff {k : Kind} {pre : List (Nat × Nat)} {file : Bytes} {strict : Bool} {p lf : Nat} (hlf : lf < 4294967296)
    {h : NtHdr} {f' : Stream} :
    loadNt k pre (st file strict p) lf = .ok (h, f') ↔
      lf % 4 = 0 ∧ lf < 2147483648 ∧ lf + k.sizeofNtBase ≤ file.length ∧ h = ntOf k pre file lf ∧
      h.signature = 0x4550 ∧ lf + k.sizeofNtBase + 8 * h.numRva ≤ file.length ∧
      f' = st file strict (lf + k.sizeofNtBase + 8 * h.numRva) := by
  have hbase : 0 < k.sizeofNtBase := by cases k <;> decide
  unfold loadNt
  rw [throwIf_bind_ok_iff]
  dsimp only
  by_cases hneg : ¬ lf < 2147483648
  · have := int32_neg hneg hlf
    rw [seekg_st, if_neg (by omega), throwIf_bind_ok_iff]
    constructor
    · rintro ⟨-, h1, -⟩; exact absurd rfl h1
    · rintro ⟨-, h1, -⟩; exact absurd h1 hneg
  replace hneg : lf < 2147483648 := by omega
  rw [int32_pos hneg, seekg_st_nat]
  by_cases hs : ¬ (strict = true → lf ≤ file.length)
  · rw [if_neg hs, throwIf_bind_ok_iff]
    constructor
    · rintro ⟨-, h1, -⟩; exact absurd rfl h1
    · rintro ⟨-, -, h1, -⟩; exact absurd (fun _ => by omega) hs
  replace hs := Decidable.not_not.mp hs
  rw [if_pos hs, throwIf_bind_ok_iff, readOr_st]
  by_cases hb : ¬ k.sizeofNtBase ≤ file.length - lf
  · rw [if_neg hb]
    constructor
    · rintro ⟨-, -, h⟩; cases h
    · rintro ⟨-, -, h1, -⟩; omega
  replace hb := Decidable.not_not.mp hb
  rw [if_pos hb, ok_bind, throwIf_bind_ok_iff]
  dsimp only
  have hof : ntOf k pre file lf = (decNt k (slice file lf k.sizeofNtBase) pre).clampRva.readDirs
    (slice file (lf + k.sizeofNtBase) (8 * (decNt k (slice file lf k.sizeofNtBase) pre).clampRva.numRva)) := rfl
  generalize decNt k (slice file lf k.sizeofNtBase) pre = d at *
  have hsig : (ntOf k pre file lf).signature = d.signature := by rw [hof, readDirs_signature]
  have hnr : (ntOf k pre file lf).numRva = d.clampRva.numRva := by rw [hof, readDirs_numRva]
  rw [← hsig]
  have hcl : ¬ d.clampRva.numRva > 16 := by unfold NtHdr.clampRva; dsimp only; split <;> omega
  generalize hh0 : d.clampRva = h0 at *
  by_cases hn : h0.numRva > 0
  · rw [if_pos hn, if_neg hcl, readOr_st]
    by_cases hd : ¬ 8 * h0.numRva ≤ file.length - (lf + k.sizeofNtBase)
    · rw [if_neg hd]
      constructor
      · rintro ⟨-, -, -, h⟩; cases h
      · rintro ⟨-, -, h1, h2, -, h3, -⟩
        rw [h2, hnr] at h3; omega
    replace hd := Decidable.not_not.mp hd
    rw [if_pos hd, ok_bind]
    simp only [Except.ok.injEq, Prod.mk.injEq]
    constructor
    · rintro ⟨h1, -, h2, h3, h4⟩
      rw [← hof] at h3
      subst h3
      refine ⟨by omega, hneg, by omega, rfl, by omega, by rw [hnr]; omega, ?_⟩
      rw [hnr]; exact h4.symm
    · rintro ⟨h1, -, -, rfl, h2, -, h4⟩
      rw [hnr] at h4
      exact ⟨by omega, by simp [st], by omega, hof.symm, h4.symm⟩
  · rw [if_neg hn]
    have h0' : h0.numRva = 0 := by omega
    have hof' : ntOf k pre file lf = h0 := by
      rw [hof, readDirs_none _ _ h0']
    simp only [Except.ok.injEq, Prod.mk.injEq]
    constructor
    · rintro ⟨h1, -, h2, h3, h4⟩
      rw [← hof'] at h3
      subst h3
      refine ⟨by omega, hneg, by omega, rfl, by omega, by rw [hnr]; omega, ?_⟩
      rw [hnr, h0', Nat.mul_zero, Nat.add_zero]; exact h4.symm
    · rintro ⟨h1, -, -, rfl, h2, -, h4⟩
      rw [hnr, h0', Nat.mul_zero, Nat.add_zero] at h4
      exact ⟨by omega, by simp [st], by omega, hof'.symm, h4.symm⟩

/-- The checks of the optional header. -/
structure NtOk (k : Kind) (h : NtHdr) : Prop where
  count : h.numSections ≤ 96
  magic : h.magic = k.magic
  sa : isPowerOf2 h.secAlign = true
  fa : isPowerOf2 h.fileAlign = true
  rel : h.fileAlign = h.secAlign ∨ (512 ≤ h.fileAlign ∧ h.fileAlign ≤ h.secAlign)
  img : alignUp h.sizeImage h.secAlign ≠ 0

theorem checkNt_iff {k : Kind} {h : NtHdr} : checkNt k h = .ok () ↔ NtOk k h := by
  unfold checkNt
  rw [throwIf_bind_ok_iff, throwIf_bind_ok_iff, throwIf_bind_ok_iff, throwIf_bind_ok_iff, throwIf_bind_ok_iff]
  have : throwIf (alignUp h.sizeImage h.secAlign = 0) .incorrectSizeOfImage = .ok () ↔ ¬ alignUp h.sizeImage h.secAlign = 0 := by
    unfold throwIf; split <;> simp_all [throwE]
  rw [this]
  constructor
  · rintro ⟨h1, h2, h3, h4, h5, h6⟩
    exact ⟨by omega, by simpa using h2, by simpa using h3, by simpa using h4, by omega, h6⟩
  · rintro ⟨h1, h2, h3, h4, h5, h6⟩
    exact ⟨by omega, by simpa using h2, by simpa using h3, by simpa using h4, by omega, h6⟩

/-- Position of the section table. -/
def tableAt (file : Bytes) (h : NtHdr) : Nat := w32 (rd 4 file 60 + h.sizeOptHdr + 24)

/-- The sections as found in the file. -/
def secsOf (h : NtHdr) (fromMem : Bool) (file : Bytes) : List Sec :=
  (List.range h.numSections).map (fun i => mkSec h fromMem file (hdrAt file (tableAt file h) i))

/-- The image as found in the file. -/
def imageOf (k : Kind) (fromMem : Bool) (pre : List (Nat × Nat)) (file : Bytes) : Image :=
  let h := ntOf k pre file (rd 4 file 60)
  let secs := secsOf h fromMem file
  { kind := k, dos := slice file 0 60, lfanew := rd 4 file 60, stub := slice file 64 (rd 4 file 60 - 64),
    nt := h, secs := secs,
    hasOverlay := overlayTest file.length secs
      (lastRawOf ((List.range h.numSections).map (fun i => (hdrAt file (tableAt file h) i).rawSize)) 0),
    hdrData := slice file 0 (headersLen h file.length secs) }

/-- The conditions under which a file is accepted. -/
structure FileOk (k : Kind) (strict fromMem : Bool) (file : Bytes) (h : NtHdr) (secs : List Sec) : Prop where
  len : 64 ≤ file.length
  mz : rd 2 file 0 = 0x5a4d
  align : rd 4 file 60 % 4 = 0
  lf : rd 4 file 60 < 2147483648
  sig : h.signature = 0x4550
  ntlen : rd 4 file 60 + k.sizeofNtBase + 8 * h.numRva ≤ file.length
  nt : NtOk k h
  table : ∀ i, i < h.numSections → tableAt file h + 40 * i + 40 ≤ file.length ∧
    SecOk h strict fromMem file (hdrAt file (tableAt file h) i)
  first : ∀ s, secs.head? = some s → h.sizeHeaders ≤ s.va
  contig : contigTest h.secAlign secs = true
  hlen : headersLen h file.length secs ≤ file.length

theorem readDosHeader_iff {file d : Bytes} : readDosHeader file = .ok d ↔
    64 ≤ file.length ∧ rd 2 file 0 = 0x5a4d ∧ d = slice file 0 64 := by
  unfold readDosHeader
  rw [throwIf_bind_ok_iff, throwIf_bind_ok_iff]
  simp only [Except.ok.injEq]
  constructor
  · rintro ⟨h1, h2, h3⟩; exact ⟨by omega, by omega, h3.symm⟩
  · rintro ⟨h1, h2, h3⟩; exact ⟨by omega, by omega, h3.symm⟩

theorem loadStub_iff {file b : Bytes} {strict : Bool} {p lf : Nat} {f' : Stream}
    (h64 : 64 ≤ file.length) (hlf : lf ≤ file.length) :
    loadStub (st file strict p) lf = .ok (b, f') ↔
      b = slice file 64 (lf - 64) ∧ f' = st file strict (if lf > 64 then lf else p) := by
  unfold loadStub
  by_cases h : lf > 64
  · rw [if_pos h, if_pos h, show ((64 : Int)) = ((64 : Nat) : Int) from rfl, seekg_st_le h64, readOr_st, if_pos (by omega)]
    simp only [Except.ok.injEq, Prod.mk.injEq]
    rw [show 64 + (lf - 64) = lf by omega]
    exact ⟨fun h => ⟨h.1.symm, h.2.symm⟩, fun h => ⟨h.1.symm, h.2.symm⟩⟩
  · rw [if_neg h, if_neg h]
    simp only [Except.ok.injEq, Prod.mk.injEq]
    rw [show lf - 64 = 0 by omega]
    have : slice file 64 0 = [] := by simp [slice]
    rw [this]
    exact ⟨fun h => ⟨h.1.symm, h.2.symm⟩, fun h => ⟨h.1.symm, h.2.symm⟩⟩

theorem loadCore_iff {k : Kind} {strict fromMem : Bool} {pre : List (Nat × Nat)} {file : Bytes} {p : Image} {f' : Stream} :
    loadCore k strict fromMem pre file = .ok (p, f') ↔
      FileOk k strict fromMem file (ntOf k pre file (rd 4 file 60))
        (secsOf (ntOf k pre file (rd 4 file 60)) fromMem file) ∧
      p = imageOf k fromMem pre file ∧
      f' = st file strict (headersLen (ntOf k pre file (rd 4 file 60)) file.length
        (secsOf (ntOf k pre file (rd 4 file 60)) fromMem file)) := by
  have hlf : rd 4 file 60 < 4294967296 := rd_lt 4 file 60
  have hbase : 0 < k.sizeofNtBase := by cases k <;> decide
  have hdos : rd 4 (slice file 0 64) 60 = rd 4 file 60 := by
    unfold rd; rw [slice_slice (by decide)]
  have hdos2 : slice (slice file 0 64) 0 60 = slice file 0 60 := by rw [slice_slice (by decide)]
  unfold loadCore
  constructor
  · intro hh
    obtain ⟨dos, h1, hh⟩ := bind_ok_iff.mp hh
    obtain ⟨hlen, hmz, rfl⟩ := readDosHeader_iff.mp h1
    rw [hdos, hdos2] at hh
    obtain ⟨⟨h, f⟩, h2, hh⟩ := bind_ok_iff.mp hh
    obtain ⟨a1, a2, a3, a4, a5, a6, rfl⟩ := (loadNt_iff hlf (p := 64)).mp h2
    obtain ⟨_, h3, hh⟩ := bind_ok_iff.mp hh
    have b := checkNt_iff.mp h3
    obtain ⟨⟨stub, f⟩, h4, hh⟩ := bind_ok_iff.mp hh
    dsimp only at hh
    obtain ⟨c1, rfl⟩ := (loadStub_iff hlen (by omega)).mp h4
    rw [throwIf_bind_ok_iff] at hh
    obtain ⟨h5, hh⟩ := hh
    rw [← a4]
    have htab : w32 (rd 4 file 60 + h.sizeOptHdr + 24) = tableAt file h := rfl
    rw [htab] at hh h5
    generalize hq : (if rd 4 file 60 > 64 then rd 4 file 60 else
      rd 4 file 60 + k.sizeofNtBase + 8 * h.numRva) = q at hh h5
    have hst : ∃ q', (if h.numSections > 0 then (st file strict q).seekg (tableAt file h) else st file strict q) = st file strict q' ∧
        (h.numSections > 0 → q' = tableAt file h) := by
      by_cases hn : h.numSections > 0
      · rw [if_pos hn] at h5 ⊢
        rw [seekg_st_nat] at h5 ⊢
        by_cases hs : strict = true → tableAt file h ≤ file.length
        · rw [if_pos hs]; exact ⟨_, rfl, fun _ => rfl⟩
        · rw [if_neg hs] at h5; exact absurd rfl h5
      · rw [if_neg hn]; exact ⟨_, rfl, fun h => absurd h hn⟩
    obtain ⟨q', hq', hq2⟩ := hst
    rw [hq'] at hh
    obtain ⟨⟨secs, last, f⟩, h6, hh⟩ := bind_ok_iff.mp hh
    obtain ⟨d1, d2, d3, rfl⟩ := loadSecs_iff.mp h6
    have hsecs : secs = secsOf h fromMem file := by
      rw [d2]; unfold secsOf
      by_cases hn : h.numSections > 0
      · rw [hq2 hn]
      · rw [show h.numSections = 0 by omega]; rfl
    have hlast : last = lastRawOf ((List.range h.numSections).map (fun i => (hdrAt file (tableAt file h) i).rawSize)) 0 := by
      rw [d3]
      by_cases hn : h.numSections > 0
      · rw [hq2 hn]
      · rw [show h.numSections = 0 by omega]; rfl
    dsimp only at hh
    rw [throwIf_bind_ok_iff, throwIf_bind_ok_iff] at hh
    obtain ⟨h7, h8, hh⟩ := hh
    rw [show ((0 : Int)) = ((0 : Nat) : Int) from rfl, seekg_st_le (Nat.zero_le _), readOr_st] at hh
    by_cases hl : ¬ headersLen h file.length secs ≤ file.length - 0
    · rw [if_neg hl] at hh; cases hh
    replace hl := Decidable.not_not.mp hl
    rw [if_pos hl, ok_bind] at hh
    simp only [Except.ok.injEq, Prod.mk.injEq] at hh
    obtain ⟨e1, e2⟩ := hh
    rw [← hsecs]
    refine ⟨⟨hlen, hmz, a1, a2, a5, a6, b, ?_, ?_, ?_, by omega⟩, ?_, ?_⟩
    · intro i hi
      have := d1 i hi
      rwa [hq2 (by omega)] at this
    · intro s hs
      rw [hs] at h7
      simp at h7
      omega
    · simpa using h8
    · rw [← e1]
      unfold imageOf
      dsimp only
      rw [← a4, ← hsecs, ← hlast, ← c1]
    · rw [← e2, Nat.zero_add]
  · rintro ⟨ok, rfl, rfl⟩
    have hnt := (loadNt_iff hlf (k := k) (pre := pre) (file := file) (strict := strict) (p := 64)).mpr
      ⟨ok.align, ok.lf, by have := ok.ntlen; omega, rfl, ok.sig, ok.ntlen, rfl⟩
    rw [readDosHeader_iff.mpr ⟨ok.len, ok.mz, rfl⟩, ok_bind, hdos, hdos2]
    dsimp only
    rw [show ({ data := file, strict := strict, pos := 64 } : Stream) = st file strict 64 from rfl, hnt, ok_bind]
    generalize hh : ntOf k pre file (rd 4 file 60) = h at *
    dsimp only
    rw [checkNt_iff.mpr ok.nt, ok_bind]
    rw [(loadStub_iff ok.len (by have := ok.ntlen; omega)).mpr ⟨rfl, rfl⟩, ok_bind]
    dsimp only
    have htab : w32 (rd 4 file 60 + h.sizeOptHdr + 24) = tableAt file h := rfl
    rw [htab]
    generalize hq : (if rd 4 file 60 > 64 then rd 4 file 60 else
      rd 4 file 60 + k.sizeofNtBase + 8 * h.numRva) = q
    have hst : ∃ q', (if h.numSections > 0 then (st file strict q).seekg (tableAt file h) else st file strict q) = st file strict q' ∧
        (h.numSections > 0 → q' = tableAt file h) := by
      by_cases hn : h.numSections > 0
      · have := (ok.table 0 hn).1
        rw [if_pos hn, seekg_st_le (by omega)]
        exact ⟨_, rfl, fun _ => rfl⟩
      · rw [if_neg hn]; exact ⟨_, rfl, fun h => absurd h hn⟩
    obtain ⟨q', hq', hq2⟩ := hst
    rw [hq', throwIf_bind_ok_iff]
    refine ⟨by simp [st], ?_⟩
    have hsecs : (List.range h.numSections).map (fun i => mkSec h fromMem file (hdrAt file q' i)) = secsOf h fromMem file := by
      unfold secsOf
      by_cases hn : h.numSections > 0
      · rw [hq2 hn]
      · rw [show h.numSections = 0 by omega]; rfl
    have hlast : lastRawOf ((List.range h.numSections).map (fun i => (hdrAt file q' i).rawSize)) 0 =
        lastRawOf ((List.range h.numSections).map (fun i => (hdrAt file (tableAt file h) i).rawSize)) 0 := by
      by_cases hn : h.numSections > 0
      · rw [hq2 hn]
      · rw [show h.numSections = 0 by omega]; rfl
    rw [loadSecs_iff.mpr ⟨fun i hi => by rw [hq2 (by omega)]; exact ok.table i hi, hsecs.symm, hlast.symm, rfl⟩, ok_bind]
    dsimp only
    rw [throwIf_bind_ok_iff, throwIf_bind_ok_iff]
    refine ⟨?_, ?_, ?_⟩
    · cases hs : (secsOf h fromMem file).head? with
      | none => simp
      | some s => have := ok.first s hs; simp; omega
    · simp [ok.contig]
    · rw [show ((0 : Int)) = ((0 : Nat) : Int) from rfl, seekg_st_le (Nat.zero_le _), readOr_st,
        if_pos (by have := ok.hlen; omega), ok_bind]
      unfold imageOf
      dsimp only
      rw [hh, Nat.zero_add]

end PE
