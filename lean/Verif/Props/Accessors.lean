/-
C75, C76: header values and virtual addresses.
-/
import Verif.Model.Accessors
import Verif.Props.Factory
import Verif.Props.Survive
import Verif.Props.FileVer
namespace PE

/-- Where the format puts a value: offset from the PE signature and number of bytes. -/
def Acc.place (k : Kind) : Acc → Nat × Nat
  | .signature => (0, 4) | .machine => (4, 2) | .numSections => (6, 2) | .timeStamp => (8, 4) | .sizeOptHdr => (20, 2)
  | .chars => (22, 2) | .magic => (24, 2) | .entry => (40, 4) | .baseOfCode => (44, 4)
  | .imageBase => match k with | .pe32 => (52, 4) | .pe64 => (48, 8)
  | .secAlign => (56, 4) | .fileAlign => (60, 4) | .majorOs => (64, 2) | .minorOs => (66, 2) | .majorSubsys => (72, 2)
  | .minorSubsys => (74, 2) | .sizeImage => (80, 4) | .sizeHeaders => (84, 4) | .checksum => (88, 4) | .subsystem => (92, 2)
  | .dllChars => (94, 2)
  | .stackReserve => match k with | .pe32 => (96, 4) | .pe64 => (96, 8)
  | .stackCommit => match k with | .pe32 => (100, 4) | .pe64 => (104, 8)
  | .heapReserve => match k with | .pe32 => (104, 4) | .pe64 => (112, 8)
  | .heapCommit => match k with | .pe32 => (108, 4) | .pe64 => (120, 8)
  | .numRva => match k with | .pe32 => (116, 4) | .pe64 => (132, 4)

/-- The values without a setter. -/
def Acc.fixed : Acc → Bool
  | .signature | .magic | .secAlign => true
  | _ => false

/-- The values that `rebuild_pe` computes. -/
def Acc.computed (strip chg : Bool) : Acc → Bool
  | .numSections | .sizeImage | .sizeOptHdr => true
  | .sizeHeaders => chg
  | .baseOfCode => strip
  | _ => false

theorem decNt_acc (k : Kind) (b : Bytes) (ds : List (Nat × Nat)) (a : Acc) :
    (decNt k b ds).getAcc a = rd (a.place k).2 b (a.place k).1 := by
  cases a <;> cases k <;> simp only [NtHdr.getAcc, Acc.place, decNt, Kind.ptr, Nat.reduceAdd, Nat.reduceMul]

theorem ntOf_acc (k : Kind) (pre : List (Nat × Nat)) (file : Bytes) (lf : Nat) (a : Acc) (ha : a ≠ .numRva) :
    (ntOf k pre file lf).getAcc a = rd (a.place k).2 (slice file lf k.sizeofNtBase) (a.place k).1 := by
  rw [← decNt_acc k _ pre a]
  cases a <;> first
    | exact absurd rfl ha
    | simp only [NtHdr.getAcc, ntOf, NtHdr.readDirs, NtHdr.clampRva]

theorem ntOf_numRva (k : Kind) (pre : List (Nat × Nat)) (file : Bytes) (lf : Nat) :
    (ntOf k pre file lf).getAcc .numRva = min 16 (rd 4 (slice file lf k.sizeofNtBase) (Acc.place k .numRva).1) := by
  have h := decNt_acc k (slice file lf k.sizeofNtBase) pre .numRva
  have hw : (Acc.place k .numRva).2 = 4 := by cases k <;> rfl
  rw [hw] at h
  rw [← h]
  simp only [NtHdr.getAcc, ntOf, NtHdr.readDirs, NtHdr.clampRva]
  split <;> omega

theorem Acc.place_le (k : Kind) (a : Acc) : (a.place k).1 + (a.place k).2 ≤ k.sizeofNtBase := by
  cases a <;> cases k <;> decide

/-- C75: on an image loaded from any file every getter returns the value that stands at the place that the format
    assigns to it. (The number of directories is cut to 16, see `C75_number_of_directories`.) -/
theorem C75_loaded (k : Kind) (strict fromMem dbg : Bool) (pre : List (Nat × Nat)) (file : Bytes) (p : Image)
    (h : load k strict fromMem dbg pre file = .ok p) (a : Acc) (ha : a ≠ .numRva) :
    p.nt.getAcc a = rd (a.place k).2 file (rd 4 file 60 + (a.place k).1) := by
  obtain ⟨-, h1, -, -, -, h2, -⟩ := load_fields h
  rw [h1, ntOf_acc _ _ _ _ _ ha, rd_of_slice _ (a.place_le k), h2]

theorem C75_number_of_directories (k : Kind) (strict fromMem dbg : Bool) (pre : List (Nat × Nat)) (file : Bytes) (p : Image)
    (h : load k strict fromMem dbg pre file = .ok p) :
    p.nt.getAcc .numRva = min 16 (rd 4 file (rd 4 file 60 + (Acc.place k .numRva).1)) := by
  obtain ⟨-, h1, -, -, -, h2, -⟩ := load_fields h
  have := rd_of_slice (a := p.lfanew) file (Acc.place_le k .numRva)
  have hw : (Acc.place k .numRva).2 = 4 := by cases k <;> rfl
  rw [hw] at this
  rw [h1, ntOf_numRva, this, h2]

/-- C75: what a setter set, the getter returns (cut to the width of the field); all other values stay as they were. -/
theorem C75_set_get (p : Image) (a b : Acc) (v : Nat) (ha : a.fixed = false) :
    (p.setAcc a v).nt.getAcc b = if a = b then v % 2 ^ (8 * (a.place p.kind).2) else p.nt.getAcc b := by
  unfold Image.setAcc
  dsimp only
  generalize p.kind = k
  cases a <;> first
    | exact absurd ha (by decide)
    | (cases b <;> cases k <;> rfl)

/-- C75: setters change nothing but the headers. -/
theorem C75_set_frame (p : Image) (a : Acc) (v : Nat) : p.setAcc a v = { p with nt := (p.setAcc a v).nt } ∧
    (p.setAcc a v).nt.dirs = p.nt.dirs := by
  refine ⟨rfl, ?_⟩
  unfold Image.setAcc; cases a <;> rfl

/-- C75: the 32-bit getters return the low 32 bits, which is everything for PE32 files. -/
theorem C75_low_half (k : Kind) (strict fromMem dbg : Bool) (pre : List (Nat × Nat)) (file : Bytes) (p : Image)
    (h : load k strict fromMem dbg pre file = .ok p) (a : Acc) :
    p.nt.getAcc32 a = p.nt.getAcc a % 2 ^ 32 ∧ (k = .pe32 → p.nt.getAcc32 a = p.nt.getAcc a) := by
  refine ⟨rfl, fun hk => Nat.mod_eq_of_lt ?_⟩
  subst hk
  by_cases ha : a = .numRva
  · subst ha
    rw [C75_number_of_directories _ _ _ _ _ _ _ h]
    exact Nat.lt_of_le_of_lt (Nat.min_le_left _ _) (by decide)
  · rw [C75_loaded _ _ _ _ _ _ _ h a ha]
    refine Nat.lt_of_lt_of_le (rd_lt _ _ _) ?_
    cases a <;> decide

/-- C75: in the file written by `rebuild_pe` the values stand at their places, except the ones that `rebuild_pe`
    computes. -/
theorem C75_saved (p q : Image) (strip chg sb : Bool) (out : Bytes) (hv : p.Saveable strip chg sb)
    (h : p.rebuildPe strip chg sb = .ok (q, out)) (a : Acc) (ha : a.computed strip chg = false) :
    rd (a.place p.kind).2 out (rd 4 out 60 + (a.place p.kind).1) = p.nt.getAcc a := by
  obtain ⟨-, hq, -⟩ := rebuildPe_ok hv.sized hv.table.fa h
  obtain ⟨hlf, -⟩ := saved_fileOk hv h true zeroDirs
  obtain ⟨-, -, hN, -⟩ := C18_headers p q strip chg sb out hv.sized hv.shaped hv.table.fa (by have := hv.stub; omega) h
  have hqr : q.nt.InRange p.kind := by rw [hq]; exact rebuiltNt_inRange hv.ntRange strip chg _
  have e := dec_encNt hqr [] []
  rw [List.append_nil, ← hN] at e
  have e2 := decNt_acc p.kind (slice out (p.ntStart strip) p.kind.sizeofNtBase) [] a
  rw [rd_of_slice _ (a.place_le _), ← hlf] at e2
  rw [← e2, hlf, e, hq]
  cases a <;> first
    | exact absurd ha Bool.noConfusion
    | rfl
    | (simp only [Acc.computed] at ha; subst ha; rfl)

/-- C75: flags and kinds of programs. -/
theorem C75_flags (h : NtHdr) (i : Nat) : h.checkFlag (2 ^ i) = (h.getAcc .chars).testBit i := by
  rw [← and_pow_ne]
  unfold NtHdr.checkFlag NtHdr.getAcc
  rw [Bool.eq_iff_iff, decide_eq_true_iff, bne_iff_ne]

theorem C75_subsystem (h : NtHdr) : (h.isConsole = true ↔ h.getAcc .subsystem = 3) ∧
    (h.isGui = true ↔ h.getAcc .subsystem = 2) :=
  ⟨decide_eq_true_iff, decide_eq_true_iff⟩

/-- A file with two sections: the values found in it, among them a number of sections and an image base. -/
example : ∃ p, load .pe32 true false true zeroDirs tinyGood = .ok p ∧ p.nt.getAcc .numSections = 2 ∧
    rd 2 tinyGood (rd 4 tinyGood 60 + 6) = 2 ∧ p.nt.getAcc .sizeImage = 1088 ∧
    (p.setAcc .imageBase 0x123456789).nt.getAcc .imageBase = 0x23456789 := by
  obtain ⟨p, h1, h2⟩ := exists_of_okAnd (x := load .pe32 true false true zeroDirs tinyGood)
    (f := fun p => decide (p.nt.getAcc .numSections = 2 ∧ rd 2 tinyGood (rd 4 tinyGood 60 + 6) = 2 ∧
      p.nt.getAcc .sizeImage = 1088 ∧ (p.setAcc .imageBase 0x123456789).nt.getAcc .imageBase = 0x23456789)) (by decide +kernel)
  exact ⟨p, h1, of_decide_eq_true h2⟩

/-! ### C76: access by virtual address -/

/-- The address space that begins at the image base does not wrap. -/
def Image.RoomAbove (p : Image) : Prop := p.nt.imageBase + 2 ^ 32 ≤ 2 ^ 64

/-- C76: access by the virtual address of a place of the image is access by its relative address. -/
theorem C76_by_address (p : Image) (hb : p.RoomAbove) (rva : Nat) (hr : rva < 2 ^ 32) (n : Nat) (t : DataType) (hdrs : Bool) :
    p.sectionFromVa (p.nt.imageBase + rva) = p.sectionFromRva rva ∧
    p.readVa n (p.nt.imageBase + rva) t hdrs = p.readT n rva t hdrs ∧
    p.ptrFromVa (p.nt.imageBase + rva) t hdrs = p.ptrFromRva rva t hdrs ∧
    p.dataLenVa (p.nt.imageBase + rva) t hdrs = p.dataLenTotal rva t hdrs ∧
    ∀ inside, inside < 2 ^ 32 →
      p.dataLenFromVa (p.nt.imageBase + rva) (p.nt.imageBase + inside) t hdrs = p.dataLenFrom rva inside t hdrs := by
  have hb' : p.nt.imageBase + 2 ^ 32 ≤ 2 ^ 64 := hb
  have key : ∀ x, x < 2 ^ 32 → p.vaToRva (p.nt.imageBase + x) = .ok x := by
    intro x hx
    rw [C05_va_to_rva p _ (by omega) hb', if_pos ⟨by omega, by omega⟩]
    exact congrArg Except.ok (by omega)
  refine ⟨?_, ?_, ?_, ?_, fun inside hi => ?_⟩
  · unfold Image.sectionFromVa; rw [key rva hr]; rfl
  · unfold Image.readVa; rw [key rva hr]; rfl
  · unfold Image.ptrFromVa; rw [key rva hr]; rfl
  · unfold Image.dataLenVa; rw [key rva hr]; rfl
  · unfold Image.dataLenFromVa; rw [key rva hr, ok_bind, key inside hi]; rfl

/-- C76: all other virtual addresses are refused. -/
theorem C76_elsewhere (p : Image) (hb : p.RoomAbove) (va : Nat) (hv : va < 2 ^ 64)
    (h : va < p.nt.imageBase ∨ p.nt.imageBase + 2 ^ 32 ≤ va) (n : Nat) (t : DataType) (hdrs : Bool) :
    p.sectionFromVa va = throwE .incorrectAddressConversion ∧
    p.readVa n va t hdrs = throwE .incorrectAddressConversion ∧
    p.ptrFromVa va t hdrs = throwE .incorrectAddressConversion ∧
    p.dataLenVa va t hdrs = throwE .incorrectAddressConversion ∧
    ∀ other, other < 2 ^ 64 → p.dataLenFromVa va other t hdrs = throwE .incorrectAddressConversion ∧
      p.dataLenFromVa other va t hdrs = throwE .incorrectAddressConversion := by
  have hb' : p.nt.imageBase + 2 ^ 32 ≤ 2 ^ 64 := hb
  have key : p.vaToRva va = throwE .incorrectAddressConversion := by
    rw [C05_va_to_rva p _ hv hb', if_neg (by omega)]; rfl
  refine ⟨?_, ?_, ?_, ?_, fun other ho => ⟨?_, ?_⟩⟩
  · unfold Image.sectionFromVa; rw [key]; rfl
  · unfold Image.readVa; rw [key]; rfl
  · unfold Image.ptrFromVa; rw [key]; rfl
  · unfold Image.dataLenVa; rw [key]; rfl
  · unfold Image.dataLenFromVa; rw [key]; rfl
  · unfold Image.dataLenFromVa
    rw [C05_va_to_rva p _ ho hb']
    split
    · rw [ok_bind, key]; rfl
    · rfl

/-- The limit of C76: with a base above `2^64 - 2^32` small addresses are taken for addresses of the image. -/
theorem C76_wrapped_address : ∃ (p : Image) (va : Nat), va < p.nt.imageBase ∧ p.nt.imageBase < 2 ^ 64 ∧
    p.readVa 2 va .raw false = .ok [2, 2] := by
  refine ⟨{ demoImage with kind := .pe64, nt := { demoImage.nt with imageBase := 0xFFFFFFFFFFFFF000 } }, 0x1004, ?_, ?_, ?_⟩ <;>
    decide +kernel

/-- C76: reading a value by virtual address never touches memory outside the data of the image, whatever the image
    base is. -/
theorem C76_read_safe (p : Image) (n va : Nat) (t : DataType) (hdrs : Bool) (u : UB) : p.readVa n va t hdrs ≠ .error (.ub u) := by
  unfold Image.readVa
  refine NoUB.bind ?_ (fun rva _ => readT_noUB p n rva t hdrs) u
  intro u
  unfold Image.vaToRva Image.vaToRva32 Image.vaToRva64
  cases p.kind <;> dsimp only <;> split <;> simp [throwE]

/-- C76: the functions that take a section besides the address. -/
theorem C76_in_section (p : Image) (hb : p.RoomAbove) (s : Sec) (va : Nat) (hv : va < 2 ^ 64) (n : Nat) (t : DataType)
    (hdrs : Bool) :
    (∀ rva, rva < 2 ^ 32 → va = p.nt.imageBase + rva →
      p.readVaSec n s va t = p.readTSec n s rva t ∧ p.ptrVaSec s va t = p.ptrFromRvaSec s rva t ∧
      p.dataLenVaSec s va t = p.dataLenSec s rva t ∧ p.mutPtrVaSec s va = p.mutPtrSec s rva ∧
      p.mutPtrVa va hdrs = p.mutPtrFromRva rva hdrs) ∧
    (va < p.nt.imageBase ∨ p.nt.imageBase + 2 ^ 32 ≤ va →
      p.readVaSec n s va t = throwE .incorrectAddressConversion ∧ p.ptrVaSec s va t = throwE .incorrectAddressConversion ∧
      p.dataLenVaSec s va t = throwE .incorrectAddressConversion ∧ p.mutPtrVaSec s va = throwE .incorrectAddressConversion ∧
      p.mutPtrVa va hdrs = throwE .incorrectAddressConversion) := by
  have hb' : p.nt.imageBase + 2 ^ 32 ≤ 2 ^ 64 := hb
  unfold Image.readVaSec Image.ptrVaSec Image.dataLenVaSec Image.mutPtrVaSec Image.mutPtrVa
  rw [C05_va_to_rva p _ hv hb']
  constructor
  · rintro rva hr rfl
    rw [if_pos ⟨by omega, by omega⟩, Nat.add_sub_cancel_left]
    exact ⟨rfl, rfl, rfl, rfl, rfl⟩
  · intro h
    rw [if_neg (by omega)]
    exact ⟨rfl, rfl, rfl, rfl, rfl⟩

/-- C76: inside the section that is found for an address, naming the section or letting it be found is the same; the
    functions that name a section throw `rva_not_exists` for every address outside of it. -/
theorem C76_named_section (p : Image) (ha : Pow2 p.nt.secAlign) (rva : Nat) (hr : rva < 2 ^ 32) (s : Sec)
    (hf : s.Fits p.nt.secAlign) (n : Nat) (t : DataType) :
    (p.sectionFromRva rva = .ok s → rva + n < 2 ^ 32 →
      p.readTSec n s rva t = p.readT n rva t false ∧ p.ptrFromRvaSec s rva t = p.ptrFromRva rva t false ∧
      ∀ o, p.mutPtrSec s rva = .ok o → ∃ i, p.secs[i]? = some s ∧ p.mutPtrFromRva rva false = .ok (.sec i o)) ∧
    (¬ s.Covers p.nt.secAlign rva →
      p.readTSec n s rva t = throwE .rvaNotExists ∧ p.ptrFromRvaSec s rva t = throwE .rvaNotExists ∧
      p.dataLenSec s rva t = throwE .rvaNotExists ∧ p.mutPtrSec s rva = throwE .rvaNotExists) := by
  constructor
  · intro h hn
    have hc : s.containsRva p.nt.secAlign rva = true := by
      unfold Image.sectionFromRva at h
      split at h
      · next s' hs =>
        cases h
        have := List.find?_some hs
        exact this
      · cases h
    have hs : isSumSafe rva n = true := by
      unfold isSumSafe
      simp only [decide_eq_true_eq]
      omega
    refine ⟨?_, ?_, ?_⟩
    · unfold Image.readTSec Image.readT
      rw [if_pos ⟨hc, hs⟩, h]
      exact (if_neg (fun x => Bool.noConfusion x.1)).symm
    · unfold Image.ptrFromRvaSec Image.ptrFromRva
      rw [if_pos hc, h]
      exact (if_neg (fun x => Bool.noConfusion x.1)).symm
    · intro o ho
      unfold Image.mutPtrSec at ho
      rw [if_pos hc] at ho
      split at ho
      · cases ho
      · next hne =>
        split at ho
        · cases ho
        · next hle =>
          cases ho
          have hva : s.va ≤ rva := by
            unfold Sec.containsRva at hc
            rw [Bool.and_eq_true, decide_eq_true_iff] at hc
            exact hc.1
          have e : sub32 rva s.va = rva - s.va := by unfold sub32; omega
          rw [e] at hle ⊢
          obtain ⟨i, hi, hsi⟩ : ∃ i, p.secs.findIdx? (fun s => s.containsRva p.nt.secAlign rva) = some i ∧ p.secs[i]? = some s := by
            unfold Image.sectionFromRva at h
            split at h
            · next s' hs' =>
              cases h
              rw [List.find?_eq_some_iff_getElem] at hs'
              obtain ⟨h1, i, hi, he, hlt⟩ := hs'
              refine ⟨i, ?_, by rw [List.getElem?_eq_getElem hi, he]⟩
              rw [List.findIdx?_eq_some_iff_getElem]
              exact ⟨hi, by rw [he]; exact h1, fun j hj => by simpa using hlt j hj⟩
            · cases h
          refine ⟨i, hsi, ?_⟩
          unfold Image.mutPtrFromRva Image.secIdxFromRva
          rw [if_neg (by simp), hi]
          show (match p.secs[i]? with | none => _ | some s => _) = _
          rw [hsi]
          dsimp only
          rw [if_neg hne, if_neg hle]
  · intro hc
    have hc' : ¬ s.containsRva p.nt.secAlign rva = true := by
      rw [Sec.containsRva_iff ha hf]; exact hc
    unfold Image.readTSec Image.ptrFromRvaSec Image.dataLenSec Image.mutPtrSec
    rw [if_neg (fun h => hc' h.1), if_neg hc', if_neg hc', if_neg hc']
    exact ⟨rfl, rfl, rfl, rfl⟩

/-- C76: `section_and_offset_from_rva` finds the section and the distance from its beginning; together they lead back to
    the address. -/
theorem C76_section_and_offset (p : Image) (ha : Pow2 p.nt.secAlign) (hf : ∀ s ∈ p.secs, s.Fits p.nt.secAlign)
    (rva : Nat) (hr : rva < 2 ^ 32) (off : Nat) (s : Sec) (h : p.sectionAndOffset rva = .ok (off, s)) :
    s ∈ p.secs ∧ s.va + off = rva ∧ off < s.span p.nt.secAlign ∧ s.rvaFromOffset off = rva := by
  unfold Image.sectionAndOffset at h
  obtain ⟨s', h1, h2⟩ := bind_ok_iff.mp h
  obtain ⟨pre, post, e1, e2, -⟩ := ((C06_section_lookup p ha hf rva).1 s').mp h1
  obtain ⟨rfl, rfl⟩ := Prod.mk.inj (Except.ok.inj h2)
  have h3 := e2.1
  have h4 := e2.2
  have h5 : sub32 rva s'.va = rva - s'.va := by unfold sub32; omega
  rw [h5]
  refine ⟨by rw [e1]; simp, by omega, by omega, ?_⟩
  unfold Sec.rvaFromOffset w32; omega

/-- C76: `section_from_directory` returns the section in which the directory lies. -/
theorem C76_section_of_directory (p : Image) (ha : Pow2 p.nt.secAlign) (hf : ∀ s ∈ p.secs, s.Fits p.nt.secAlign)
    (hd : VirtDisjoint p.nt.secAlign p.secs) (id : Nat) (d : Nat × Nat) (hid : id < p.nt.numRva)
    (hget : p.nt.dirs[id]? = some d) (s : Sec) (hs : s ∈ p.secs) (hc : s.Covers p.nt.secAlign d.1) :
    p.sectionFromDirectory id = .ok s := by
  unfold Image.sectionFromDirectory NtHdr.getDirRva NtHdr.dirAt
  rw [if_neg (by omega), hget]
  exact C06_unique p ha hf hd d.1 s hs hc

example : demoImage.RoomAbove ∧ demoImage.sectionFromVa (demoImage.nt.imageBase + 0x2010) = demoImage.sectionFromRva 0x2010 ∧
    demoImage.readVa 2 (demoImage.nt.imageBase + 0x2004) .raw false = .ok [2, 2] ∧
    demoImage.readVa 2 3 .raw false = throwE .incorrectAddressConversion := by
  refine ⟨by unfold Image.RoomAbove; decide, ?_, ?_, ?_⟩ <;> decide +kernel

-- the second section of the image, an address in it and one outside
example : let s : Sec := { va := 0x2000, vsize := 0x800, rawSize := 0x400, rawPtr := 0x400, data := List.replicate 16 2 }
    demoImage.RoomAbove ∧ s.Fits demoImage.nt.secAlign ∧ demoImage.sectionFromRva 0x2008 = .ok s ∧
    demoImage.readVaSec 4 s (demoImage.nt.imageBase + 0x2008) .raw = .ok [2, 2, 2, 2] ∧
    demoImage.mutPtrSec s 0x2008 = .ok 8 ∧ ¬ s.Covers demoImage.nt.secAlign 0x1008 ∧
    demoImage.readTSec 4 s 0x1008 .raw = throwE .rvaNotExists := by
  refine ⟨by unfold Image.RoomAbove; decide, by constructor <;> decide, ?_, ?_, ?_, by decide, ?_⟩ <;> decide +kernel

end PE
