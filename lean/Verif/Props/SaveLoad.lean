/-
Saving and loading again (C19).
-/
import Verif.Props.Rebuild
namespace PE

/-- What an image has to satisfy to survive being written and loaded again. Everything here holds for images built or
    loaded by the library, except: the written file has to stay below 4 GiB, raw pointers of sections without data must
    not be stale, and every section holds exactly the raw data its header announces, not more than its virtual size
    (rounded up) has room for. -/
structure Image.Saveable (p : Image) (strip chg sb : Bool) : Prop where
  sized : p.Sized
  shaped : p.Shaped
  mz : rd 2 p.dos 0 = 0x5a4d
  stub : p.stub.length ≤ 2 ^ 31 - 68
  sig : p.nt.signature = 0x4550
  magic : p.nt.magic = p.kind.magic
  ntRange : p.nt.InRange p.kind
  dirsRange : ∀ d ∈ p.nt.dirs, d.1 < 2 ^ 32 ∧ d.2 < 2 ^ 32
  rel : p.nt.fileAlign = p.nt.secAlign ∨ (512 ≤ p.nt.fileAlign ∧ p.nt.fileAlign ≤ p.nt.secAlign)
  table : ValidTable p
  some : p.secs ≠ []
  secRange : ∀ s ∈ p.secs, s.InRange
  sizes : ∀ s ∈ p.secs, s.data.length = s.rawSize ∧ s.vsize ≠ 0 ∧ s.vsize ≤ 2 ^ 31 ∧ s.rawSize ≤ 2 ^ 31 ∧
    ceilTo s.rawSize p.nt.fileAlign ≤ ceilTo s.vsize p.nt.secAlign
  below : chg = true ∨ ∀ s, p.secs.head? = Option.some s → p.nt.sizeHeaders ≤ s.va
  noStale : NoStalePointers p.nt.fileAlign (p.dataStart strip (p.savesBound sb)) p.secs
  fits : p.FileFits strip (p.savesBound sb)

theorem rebuiltNt_inRange {p : Image} (hr : p.nt.InRange p.kind) (strip chg save : Bool) :
    (rebuiltNt p strip chg save).InRange p.kind := by
  have h1 : (rebuiltNt p strip chg save).baseOfCode < 256 ^ 4 := by
    show (if strip then 16 else p.nt.baseOfCode) < 256 ^ 4
    split
    · decide
    · have := hr.all (4, p.nt.baseOfCode) (by unfold ntFields; simp)
      exact this
  have hsh : p.nt.sizeHeaders < 256 ^ 4 := hr.all (4, p.nt.sizeHeaders) (by unfold ntFields; simp)
  have h2 : (rebuiltNt p strip chg save).sizeHeaders < 256 ^ 4 := by
    show (if chg then w32 (p.dataStart strip save) else p.nt.sizeHeaders) < 256 ^ 4
    split
    · exact Nat.mod_lt _ (by decide)
    · exact hsh
  have h3 : (rebuiltNt p strip chg save).sizeImage < 256 ^ 4 := by
    unfold rebuiltNt
    dsimp only
    split
    · exact Nat.mod_lt _ (by decide)
    · exact h2
  have h4 : (rebuiltNt p strip chg save).numSections < 256 ^ 2 := Nat.mod_lt _ (by decide)
  have h5 : (rebuiltNt p strip chg save).sizeOptHdr < 256 ^ 2 := Nat.mod_lt _ (by decide)
  refine ⟨?_, hr.bod⟩
  have P := hr.all
  revert P h1 h2 h3 h4 h5
  have e : rebuiltNt p strip chg save = { p.nt with
      baseOfCode := (rebuiltNt p strip chg save).baseOfCode, sizeHeaders := (rebuiltNt p strip chg save).sizeHeaders,
      sizeImage := (rebuiltNt p strip chg save).sizeImage, numSections := (rebuiltNt p strip chg save).numSections,
      sizeOptHdr := (rebuiltNt p strip chg save).sizeOptHdr, dirs := (rebuiltNt p strip chg save).dirs } := rfl
  rw [e]
  generalize (rebuiltNt p strip chg save) = r
  dsimp only
  intro h1 h2 h3 h4 h5 P
  unfold ntFields at P ⊢
  generalize p.kind = k at P ⊢
  cases k <;>
  · simp only [List.forall_mem_append, List.forall_mem_cons, List.not_mem_nil, false_implies, implies_true, and_true] at P ⊢
    simp only [P, h1, h2, h3, h4, h5, and_true]

theorem rebuilt_dirsRange {p : Image} (hr : ∀ d ∈ p.nt.dirs, d.1 < 2 ^ 32 ∧ d.2 < 2 ^ 32) (hs : p.Sized) (strip chg save : Bool) :
    ∀ d ∈ (rebuiltImage p strip chg save).nt.dirs, d.1 < 4294967296 ∧ d.2 < 4294967296 := by
  intro d hd
  rw [rebuilt_dirs] at hd
  split at hd
  · rcases List.mem_or_eq_of_mem_set hd with h | h
    · exact hr d h
    · subst h
      exact ⟨Nat.mod_lt _ (by decide), hs.bound⟩
  · exact hr d hd

/-- The NT headers found in a file holding encoded headers. -/
theorem ntOf_enc {k : Kind} {h : NtHdr} {file : Bytes} {lf : Nat} {pre : List (Nat × Nat)} (hr : h.InRange k)
    (hn : h.numRva ≤ 16) (hl : h.dirs.length = 16) (hd : ∀ d ∈ h.dirs, d.1 < 4294967296 ∧ d.2 < 4294967296)
    (h1 : slice file lf k.sizeofNtBase = encFields (ntFields k h))
    (h2 : slice file (lf + k.sizeofNtBase) (8 * h.numRva) = encDirs (h.dirs.take h.numRva)) :
    ntOf k pre file lf = { h with dirs := h.dirs.take h.numRva ++ pre.drop h.numRva } := by
  unfold ntOf
  have e1 := dec_encNt hr [] pre
  rw [List.append_nil] at e1
  rw [h1, e1]
  have e2 : ({ h with dirs := pre } : NtHdr).clampRva = { h with dirs := pre } := by
    unfold NtHdr.clampRva
    dsimp only
    rw [if_neg (by omega)]
  rw [e2]
  dsimp only
  rw [h2]
  unfold NtHdr.readDirs
  dsimp only
  have e3 := dec_encDirs (ds := h.dirs.take h.numRva) (fun d hd' => hd d (List.mem_of_mem_take hd')) []
  rw [List.append_nil, List.length_take, hl, Nat.min_eq_left hn] at e3
  rw [e3]

theorem contigTest_of {a : Nat} {l : List Sec} (ha : Pow2 a) (hf : ∀ s ∈ l, s.Fits a) (hc : Contig a l) : contigTest a l = true := by
  induction l with
  | nil => rfl
  | cons s l ih =>
    cases l with
    | nil => rfl
    | cons t l =>
      unfold contigTest
      rw [Bool.and_eq_true]
      refine ⟨?_, ih (fun s hs => hf s (by simp [hs])) hc.2⟩
      have h1 := hf s (by simp)
      rw [Sec.alignedVS_eq ha h1, beq_iff_eq, hc.1]
      exact (Nat.mod_eq_of_lt h1.fin).symm

theorem contig_last {a : Nat} {l : List Sec} (hc : Contig a l) {x : Sec} (hx : l.getLast? = some x) :
    ∀ s ∈ l, s.va + s.span a ≤ x.va + x.span a := by
  induction l with
  | nil => simp at hx
  | cons s l ih =>
    cases l with
    | nil =>
      simp only [List.getLast?_singleton, Option.some.injEq] at hx
      subst hx
      intro t ht
      simp only [List.mem_singleton] at ht
      subst ht; exact Nat.le_refl _
    | cons t l =>
      rw [List.getLast?_cons_cons] at hx
      have := ih hc.2 hx
      intro u hu
      rcases List.mem_cons.mp hu with rfl | hu
      · have h1 := this t (by simp)
        have h2 := hc.1
        omega
      · exact this u hu

theorem placeSecs_contig {a : Nat} (fa ptr : Nat) (l : List Sec) (h : Contig a l) : Contig a (placeSecs fa ptr l) := by
  have head : ∀ (ptr : Nat) (s : Sec) (l : List Sec), ∃ ptr' x, placeSecs fa ptr (s :: l) = { s with rawPtr := x } :: placeSecs fa ptr' l := by
    intro ptr s l
    rw [placeSecs]
    split
    · exact ⟨_, w32 ptr, rfl⟩
    · exact ⟨ptr, s.rawPtr, rfl⟩
  induction l generalizing ptr with
  | nil => trivial
  | cons s l ih =>
    obtain ⟨p1, x1, e1⟩ := head ptr s l
    rw [e1]
    cases l with
    | nil => trivial
    | cons t l =>
      have := ih p1 h.2
      obtain ⟨p2, x2, e2⟩ := head p1 t l
      rw [e2] at this ⊢
      exact ⟨h.1, this⟩

/-- The image as it comes back: the raw pointers of the sections and the header fields C17 is about are those of the
    written file. -/
theorem saved_fileOk {p q : Image} {strip chg sb : Bool} {out : Bytes} (hv : p.Saveable strip chg sb)
    (h : p.rebuildPe strip chg sb = .ok (q, out)) (strict : Bool) (pre : List (Nat × Nat)) :
    rd 4 out 60 = p.ntStart strip ∧
    ntOf p.kind pre out (p.ntStart strip) = { q.nt with dirs := q.nt.dirs.take p.nt.numRva ++ pre.drop p.nt.numRva } ∧
    secsOf (ntOf p.kind pre out (p.ntStart strip)) false out = q.secs ∧
    FileOk p.kind strict false out (ntOf p.kind pre out (p.ntStart strip)) q.secs := by
  have fa := hv.table.fa
  have sa := hv.table.sa
  obtain ⟨hq, e1, e2, -⟩ := rebuildPe_ok hv.sized fa h
  obtain ⟨hA, hB, hN, hR, hS⟩ := C18_headers p q strip chg sb out hv.sized hv.shaped fa (by have := hv.stub; omega) h
  obtain ⟨-, hD, -, hlen⟩ := C18_data_partial p q strip chg sb out hv.sized hv.shaped fa hv.fits hv.noStale h
  obtain ⟨hsl, hget, -⟩ := C17_layout p q strip chg (p.savesBound sb) _ hv.sized hv.shaped fa hv.fits hq
  have hlf : rd 4 out 60 = p.ntStart strip := by
    cases strip
    · exact (hA rfl).2.1
    · exact (hB rfl).2
  have hn16 := hv.sized.dirs.count
  have hqn : q.nt.numRva = p.nt.numRva := by rw [e1]; rfl
  have hqr : q.nt.InRange p.kind := by rw [e1]; exact rebuiltNt_inRange hv.ntRange strip chg _
  have hqd : ∀ d ∈ q.nt.dirs, d.1 < 4294967296 ∧ d.2 < 4294967296 := by
    rw [e1]; exact rebuilt_dirsRange hv.dirsRange hv.sized strip chg _
  have hql : q.nt.dirs.length = 16 := by rw [e1]; exact (rebuilt_dirsOk hv.sized strip chg _).slots
  have hnt : ntOf p.kind pre out (p.ntStart strip) = { q.nt with dirs := q.nt.dirs.take p.nt.numRva ++ pre.drop p.nt.numRva } := by
    have := ntOf_enc (k := p.kind) (h := q.nt) (file := out) (lf := p.ntStart strip) (pre := pre) hqr (by omega) hql hqd hN
      (by rw [hqn]; exact hR)
    rw [this, ← hqn]
  have hqfa : q.nt.fileAlign = p.nt.fileAlign := by rw [e1]; rfl
  have hqsa : q.nt.secAlign = p.nt.secAlign := by rw [e1]; rfl
  have hqs : q.nt.sizeOptHdr = p.kind.sizeofOpt - 8 * (16 - p.nt.numRva) := by
    rw [e1]
    show w16 _ = _
    have hk : p.kind.sizeofOpt = 224 ∨ p.kind.sizeofOpt = 240 := by cases p.kind <;> simp [Kind.sizeofOpt]
    unfold w16
    omega
  have hso := sizeofOpt_eq p.kind p.nt.numRva hn16
  have hbase := sizeofNtBase_eq p.kind p.nt.numRva hn16
  have hqnum : q.nt.numSections = p.secs.length := by
    rw [e1]
    show w16 _ = _
    have := hv.table.count
    unfold w16; omega
  have hnts : p.ntStart strip < 2147483648 := by
    have := hv.stub
    have hc := ceilTo_lt (x := p.stub.length) (a := 4) (by decide)
    have hd := ceilTo_dvd p.stub.length 4
    unfold Image.ntStart
    split <;> omega
  have hnt4 : p.ntStart strip % 4 = 0 := by
    have hd := ceilTo_dvd p.stub.length 4
    unfold Image.ntStart
    split <;> omega
  -- length of the file
  obtain ⟨D, N, R, S, B, data, ho, -, hDl, -, hNl, -, hRl, -, hSl, -, -⟩ := out_parts hv.sized hv.shaped fa h
  have hol : p.ntStart strip + p.kind.sizeofNtBase + 8 * p.nt.numRva + 40 * p.secs.length ≤ out.length := by
    rw [ho]
    simp only [List.length_append]
    omega
  have hk120 : 120 ≤ p.kind.sizeofNtBase := by cases p.kind <;> decide
  -- the sections
  have hsec : ∀ (i : Nat) (t : Sec), q.secs[i]? = some t → ∃ s, p.secs[i]? = some s ∧
      t = { s with rawPtr := t.rawPtr } ∧ s ∈ p.secs ∧ t.InRange ∧ (t.rawSize ≠ 0 → t.rawPtr + t.rawSize ≤ out.length ∧
        slice out t.rawPtr t.rawSize = t.data ∧ p.nt.fileAlign ∣ t.rawPtr) := by
    intro i t hi
    have hilt : i < p.secs.length := by rw [← hsl]; exact (List.getElem?_eq_some_iff.mp hi).1
    obtain ⟨s, hs⟩ : ∃ s, p.secs[i]? = some s := ⟨_, List.getElem?_eq_getElem hilt⟩
    obtain ⟨t', ht', et, hal⟩ := hget i s hs
    rw [hi] at ht'
    obtain rfl := Option.some.inj ht'
    have hm := List.mem_of_getElem? hs
    have hms := hv.secRange s hm
    have hsz := hv.sizes s hm
    have hrs : t.rawSize = s.rawSize := by rw [et]
    have hda : t.data = s.data := by rw [et]
    refine ⟨s, hs, ?_, hm, ?_, ?_⟩
    · rw [et]
    · have hrp : t.rawPtr < 4294967296 := by
        by_cases h0 : s.rawSize = 0
        · rw [et]; dsimp only; rw [if_pos h0]; exact hms.rawPtr
        · have h1 := (hD t (List.mem_of_getElem? hi) (by omega)).1
          have h2 := hv.fits
          unfold Image.FileFits at h2
          omega
      rw [et] at hrp ⊢
      exact ⟨hms.name, hms.vsize, hms.va, hms.rawSize, hrp, hms.relPtr, hms.linePtr, hms.nReloc, hms.nLine, hms.chars⟩
    · intro h0
      have h1 := hD t (List.mem_of_getElem? hi) h0
      refine ⟨h1.1, ?_, (hal (by omega)).1⟩
      rw [h1.2, hrs, hda]
      unfold resize
      rw [hsz.1]
      simp [← hsz.1]
  -- size of the image
  obtain ⟨l, hl⟩ : ∃ l, p.secs.getLast? = some l := by
    cases hl : p.secs.getLast? with
    | none => exact absurd (List.getLast?_eq_none_iff.mp hl) hv.some
    | some l => exact ⟨l, rfl⟩
  have hlm := List.mem_of_getLast? hl
  have hlf' := hv.table.fits l hlm
  have himg : q.nt.sizeImage = l.va + l.span p.nt.secAlign := by
    rw [e1]
    show (match p.secs.getLast? with | some s => w32 (s.va + s.alignedVS p.nt.secAlign) | none => _) = _
    rw [hl]
    dsimp only
    rw [Sec.alignedVS_eq sa hlf']
    exact Nat.mod_eq_of_lt hlf'.fin
  have hspos : ∀ s ∈ p.secs, s.span p.nt.secAlign = ceilTo s.vsize p.nt.secAlign ∧ 0 < s.span p.nt.secAlign := by
    intro s hs
    have := (hv.sizes s hs).2.1
    unfold Sec.span
    rw [if_neg this]
    exact ⟨rfl, ceilTo_pos sa.pos (by omega)⟩
  have himga : alignUp q.nt.sizeImage p.nt.secAlign = l.va + l.span p.nt.secAlign := by
    rw [himg]
    refine alignUp_of_dvd sa hlf'.fin ?_
    exact Nat.dvd_add (hv.table.aligned l hlm) (ceilTo_dvd _ _)
  have hend := contig_last hv.table.contig hl
  have htab : tableAt out (ntOf p.kind pre out (p.ntStart strip)) = p.ntStart strip + 24 + q.nt.sizeOptHdr := by
    unfold tableAt
    rw [hlf, hnt]
    show w32 (p.ntStart strip + q.nt.sizeOptHdr + 24) = _
    have : q.nt.sizeOptHdr < 65536 := by
      have := hqr.all (2, q.nt.sizeOptHdr) (by unfold ntFields; simp)
      exact this
    unfold w32
    omega
  have hhdr : ∀ (i : Nat) (t : Sec), q.secs[i]? = some t →
      hdrAt out (p.ntStart strip + 24 + q.nt.sizeOptHdr) i = { t with data := [] } := by
    intro i t hi
    obtain ⟨s, -, -, -, hr, -⟩ := hsec i t hi
    unfold hdrAt
    rw [hS i t hi]
    have := dec_encSec hr []
    rw [List.append_nil] at this
    exact this
  generalize hH : ntOf p.kind pre out (p.ntStart strip) = H at *
  have hHfa : H.fileAlign = p.nt.fileAlign := by rw [hnt]; exact hqfa
  have hHsa : H.secAlign = p.nt.secAlign := by rw [hnt]; exact hqsa
  have hHn : H.numSections = p.secs.length := by rw [hnt]; exact hqnum
  have hHi : H.sizeImage = q.nt.sizeImage := by rw [hnt]
  -- the section made from header i
  have hfix : ∀ (i : Nat) (t : Sec), q.secs[i]? = some t → fixRaw H { t with data := [] } = { t with data := [] } := by
    intro i t hi
    obtain ⟨s, -, et, hm, -, -⟩ := hsec i t hi
    have hsz := hv.sizes s hm
    have h1 : t.rawSize = s.rawSize := by rw [et]
    have h2 : t.vsize = s.vsize := by rw [et]
    unfold fixRaw
    dsimp only
    rw [hHfa, hHsa, h1, h2, alignUp_2gb fa hsz.2.2.2.1, alignUp_2gb sa hsz.2.2.1, if_neg (by omega)]
  have hoff : ∀ (i : Nat) (t : Sec), q.secs[i]? = some t → t.rawSize ≠ 0 → rawOff H false { t with data := [] } = t.rawPtr := by
    intro i t hi h0
    obtain ⟨s, -, et, hm, hr, hd⟩ := hsec i t hi
    unfold rawOff
    simp only [Bool.false_eq_true, if_false]
    rw [hHfa, alignDown_eq fa hr.rawPtr]
    exact Nat.div_mul_cancel (hd h0).2.2
  have hmk : ∀ (i : Nat) (t : Sec), q.secs[i]? = some t → mkSec H false out { t with data := [] } = t := by
    intro i t hi
    obtain ⟨s, -, et, hm, hr, hd⟩ := hsec i t hi
    have hsz := hv.sizes s hm
    by_cases h0 : t.rawSize ≠ 0
    · have e : mkSec H false out { t with data := [] } = rawSec H false out (fixRaw H { t with data := [] }) := by
        unfold mkSec; rw [if_pos h0]
      rw [e, hfix i t hi]
      unfold rawSec
      rw [hoff i t hi h0]
      dsimp only
      rw [(hd h0).2.1]
    · have e : mkSec H false out { t with data := [] } = { t with data := [] } := by
        unfold mkSec; rw [if_neg h0]
      rw [e]
      have h1 : t.data = [] := by
        have h2 : t.data = s.data := by rw [et]
        have h3 : t.rawSize = s.rawSize := by rw [et]
        rw [h2]
        exact List.length_eq_zero_iff.mp (by omega)
      rw [← h1]
  have hsecs : secsOf H false out = q.secs := by
    unfold secsOf
    rw [htab, hHn, ← hsl]
    apply List.ext_getElem?
    intro i
    rw [List.getElem?_map]
    by_cases hi : i < q.secs.length
    · rw [List.getElem?_range hi, Option.map_some, List.getElem?_eq_getElem hi]
      have := List.getElem?_eq_getElem hi
      rw [hhdr i _ this, hmk i _ this]
    · rw [List.getElem?_eq_none (by simpa using hi), List.getElem?_eq_none (by simpa using hi)]
      rfl
  refine ⟨hlf, hnt, hsecs, ?_⟩
  have hvirt : ∀ (i : Nat) (t : Sec), q.secs[i]? = some t → w32 (t.va + ceilTo t.vsize p.nt.secAlign) ≤ l.va + l.span p.nt.secAlign ∧
      t.Fits p.nt.secAlign ∧ t.span p.nt.secAlign = ceilTo t.vsize p.nt.secAlign := by
    intro i t hi
    obtain ⟨s, -, et, hm, hr, hd⟩ := hsec i t hi
    have h1 := hspos s hm
    have h2 := hv.table.fits s hm
    have h3 := hend s hm
    have h4 : t.va = s.va := by rw [et]
    have h5 : t.vsize = s.vsize := by rw [et]
    have h6 : t.span p.nt.secAlign = s.span p.nt.secAlign := by rw [et]; rfl
    have h7 := h2.fin
    refine ⟨?_, ⟨by rw [h5]; exact h2.vsize, hr.rawSize, hr.rawPtr, by rw [h4, h6]; exact h7⟩, by rw [h6, h5, h1.1]⟩
    rw [h4, h5, ← h1.1]
    have : w32 (s.va + s.span p.nt.secAlign) ≤ s.va + s.span p.nt.secAlign := Nat.mod_le _ _
    omega
  refine ⟨by omega, ?_, by omega, by omega, ?_, ?_, ?_, ?_, ?_, ?_, ?_⟩
  · -- MZ
    have hrd : ∀ (a : Bytes) (n : Nat), 2 ≤ n → slice out 0 n = a.take n → n ≤ a.length → rd 2 out 0 = rd 2 a 0 := by
      intro a n hn e hna
      have e3 : slice out 0 2 = slice (slice out 0 n) 0 2 := by rw [slice_slice (by omega)]
      have e4 : slice a 0 2 = slice (slice a 0 n) 0 2 := by rw [slice_slice (by omega)]
      unfold rd
      rw [e3, e4, e]
      unfold slice
      simp
    have h60 := hv.shaped.dos
    rw [← hv.mz]
    cases hstr : strip
    · refine hrd p.dos 60 (by decide) ?_ (by omega)
      rw [(hA hstr).1, List.take_of_length_le (by omega)]
    · exact hrd p.dos 16 (by decide) (hB hstr).1 (by omega)
  · rw [hnt]
    show q.nt.signature = _
    rw [e1]; exact hv.sig
  · rw [hlf, hnt]
    show p.ntStart strip + p.kind.sizeofNtBase + 8 * q.nt.numRva ≤ _
    omega
  · refine ⟨?_, ?_, ?_, ?_, ?_, ?_⟩
    · rw [hHn]; exact hv.table.count
    · rw [hnt]
      show q.nt.magic = _
      rw [e1]; exact hv.magic
    · rw [hHsa]; exact (isPowerOf2_iff sa.lt).mpr (.inr sa)
    · rw [hHfa]; exact (isPowerOf2_iff fa.lt).mpr (.inr fa)
    · rw [hHsa, hHfa]; exact hv.rel
    · rw [hHi, hHsa, himga]
      have := (hspos l hlm).2
      omega
  · intro i hi
    rw [hHn, ← hsl] at hi
    have ht := List.getElem?_eq_getElem hi
    generalize q.secs[i] = t at ht
    rw [htab, hhdr i t ht]
    obtain ⟨s, -, et, hm, hr, hd⟩ := hsec i t ht
    have hsz := hv.sizes s hm
    have h1 : t.rawSize = s.rawSize := by rw [et]
    have h2 : t.vsize = s.vsize := by rw [et]
    have h3 : t.va = s.va := by rw [et]
    obtain ⟨v1, v2, v3⟩ := hvirt i t ht
    have hge := ceilTo_ge (x := t.vsize) sa.pos
    have hfin := v2.fin
    rw [hsl] at hi
    refine ⟨by omega, ⟨?_, ?_, ?_⟩⟩
    · refine ⟨?_, ?_, ?_, ?_, ?_⟩
      · dsimp only; omega
      · dsimp only; omega
      · dsimp only; omega
      · dsimp only
        by_cases h0 : t.rawSize = 0
        · have := hr.rawPtr; omega
        · have := (hd h0).1
          have h2 := hv.fits
          unfold Image.FileFits at h2
          omega
      · dsimp only; omega
    · intro h0
      rw [hfix i t ht]
      have ho := hoff i t ht h0
      have hdd := hd h0
      refine ⟨?_, ?_, ?_, ?_⟩
      · dsimp only
        rw [hHsa, hHi, himga, alignUp_2gb sa (by omega)]
        exact v1
      · have h2 := hv.fits
        unfold Image.FileFits at h2
        have : alignDown t.rawPtr H.fileAlign = t.rawPtr := by
          rw [hHfa, alignDown_eq fa hr.rawPtr]
          exact Nat.div_mul_cancel hdd.2.2
        dsimp only
        rw [this]
        unfold w32
        omega
      · intro _; rw [ho]; omega
      · rw [ho]; dsimp only; omega
    · rw [hmk i t ht, hHsa, hHi, himga, Sec.alignedVS_eq sa v2, v3]
      exact v1
  · intro s hs
    rw [hnt]
    show q.nt.sizeHeaders ≤ s.va
    have h0 : q.secs[0]? = some s := by rw [← List.head?_eq_getElem?]; exact hs
    obtain ⟨u, hu, et, -⟩ := hsec 0 s h0
    have hva : s.va = u.va := by rw [et]
    have hu' : p.secs.head? = some u := by rw [List.head?_eq_getElem?]; exact hu
    have hsh : q.nt.sizeHeaders = if chg then w32 (p.dataStart strip (p.savesBound sb)) else p.nt.sizeHeaders := by
      rw [e1]; rfl
    rw [hsh, hva]
    cases hc : chg
    · simp only [Bool.false_eq_true, if_false]
      rcases hv.below with hb | hb
      · rw [hc] at hb; simp at hb
      · exact hb u hu'
    · simp only [if_true]
      exact e2 hc u hu'
  · rw [hHsa]
    refine contigTest_of sa ?_ ?_
    · intro t ht
      obtain ⟨i, hi⟩ := List.mem_iff_getElem?.mp ht
      exact (hvirt i t hi).2.1
    · have hc := hv.table.contig
      rw [e1]
      show Contig _ (placeSecs _ _ _)
      exact placeSecs_contig _ _ _ hc
  · unfold headersLen
    split
    · next s hs =>
      obtain ⟨i, hi⟩ := List.mem_iff_getElem?.mp (List.mem_of_find?_eq_some hs)
      obtain ⟨u, -, et, hm, -, hd⟩ := hsec i s hi
      have hne := List.find?_some hs
      have hsz := hv.sizes u hm
      have hne' : s.rawSize ≠ 0 := by
        have h1 : s.rawSize = u.rawSize := by rw [et]
        have h2 : s.data = u.data := by rw [et]
        intro h0
        have : s.data = [] := List.length_eq_zero_iff.mp (by rw [h2]; omega)
        unfold Sec.empty at hne
        rw [this] at hne
        simp at hne
      have := (hd hne').1
      omega
    · have : w32 out.length ≤ out.length := Nat.mod_le _ _
      omega

/-- Loading succeeds whenever the file is acceptable; debug data are read afterwards and never make it fail. -/
theorem load_of_fileOk {k : Kind} {strict fromMem : Bool} {pre : List (Nat × Nat)} {file : Bytes} (hp : pre.length = 16)
    (hd : ∀ d ∈ pre, d.1 < 4294967296) (ok : FileOk k strict fromMem file (ntOf k pre file (rd 4 file 60))
        (secsOf (ntOf k pre file (rd 4 file 60)) fromMem file)) (dbg : Bool) :
    ∃ p, load k strict fromMem dbg pre file = .ok p := by
  unfold load
  rw [loadCore_iff.mpr ⟨ok, rfl, rfl⟩, ok_bind]
  dsimp only
  split
  · have hr := imageOf_reads ok
    have h1 := imageOf_dirs (k := k) (fromMem := fromMem) (file := file) hp
    have h2 := imageOf_dirs_lt (k := k) (fromMem := fromMem) (file := file) hd
    generalize imageOf k fromMem pre file = q at *
    generalize st _ _ _ = f
    have hn := loadDebug_noUB hr h1 h2 f
    have he : ∀ e, loadDebug q f ≠ .error (.exn e) := by
      intro e he
      unfold loadDebug at he
      rcases hasBound_dir h1 (id := dirDebug) with hb | hb
      · obtain ⟨b, hb⟩ : ∃ b, q.hasDir dirDebug = .ok b := ⟨_, hb⟩
        rw [hb, ok_bind] at he
        have key : ∀ go : Res (List (Nat × Bytes)), (match go with | .error (.exn _) => (.ok [] : Res (List (Nat × Bytes))) | r => r) ≠ .error (.exn e) := by
          intro go hg
          rcases go with (e | u) | d <;> simp at hg
        cases b
        · simp at he
        · exact key _ he
      · exact absurd hb (by decide)
    cases hl : loadDebug q f with
    | ok d => exact ⟨_, rfl⟩
    | error e =>
      cases e with
      | exn e => exact absurd hl (he e)
      | ub u => exact absurd hl (hn u)
  · exact ⟨_, rfl⟩

/-- C19: loading what the rebuilder wrote (with or without strict seeking, with or without debug data) succeeds and
    gives back the image: the same NT headers as the rebuilt image, directories up to the stored count (the others
    keep the values `pre` they had), the same sections with the same contents (only raw pointers differ, see C17),
    and without stripping the same DOS header and stub (padded with zeros). -/
theorem C19_save_load (p q : Image) (strip chg sb strict dbg : Bool) (out : Bytes) (pre : List (Nat × Nat))
    (hp : pre.length = 16) (hd : ∀ d ∈ pre, d.1 < 2 ^ 32) (hv : p.Saveable strip chg sb)
    (h : p.rebuildPe strip chg sb = .ok (q, out)) :
    ∃ r, load p.kind strict false dbg pre out = .ok r ∧ r.kind = p.kind ∧
      r.nt = { q.nt with dirs := q.nt.dirs.take p.nt.numRva ++ pre.drop p.nt.numRva } ∧
      r.secs = q.secs ∧
      r.secs.map (fun s => { s with rawPtr := 0 }) = p.secs.map (fun s => { s with rawPtr := 0 }) ∧
      r.lfanew = p.ntStart strip ∧
      (strip = false → r.dos = p.dos ∧ r.stub = p.stub ++ List.replicate (ceilTo p.stub.length 4 - p.stub.length) 0) := by
  have fa := hv.table.fa
  obtain ⟨hlf, hnt, hsecs, ok⟩ := saved_fileOk hv h strict pre
  have ok2 := ok
  rw [← hsecs, ← hlf] at ok2
  obtain ⟨r, hr⟩ := load_of_fileOk hp hd ok2 dbg
  obtain ⟨-, f1, f2, f3, f4, f5, f6, f7⟩ := load_fields hr
  rw [f5, hlf] at f1 f7
  rw [f1, hsecs] at f2
  refine ⟨r, hr, f3, f1.trans hnt, f2, ?_, by rw [f5, hlf], ?_⟩
  · obtain ⟨hq, e1, -⟩ := rebuildPe_ok hv.sized fa h
    obtain ⟨hsl, hget, -⟩ := C17_layout p q strip chg (p.savesBound sb) _ hv.sized hv.shaped fa hv.fits hq
    rw [f2]
    apply List.ext_getElem?
    intro i
    rw [List.getElem?_map, List.getElem?_map]
    cases hs : p.secs[i]? with
    | none =>
      have : q.secs[i]? = none := by
        rw [List.getElem?_eq_none_iff] at hs ⊢
        omega
      rw [this, Option.map_none]
    | some s =>
      obtain ⟨t, ht, et, -⟩ := hget i s hs
      rw [ht, Option.map_some, Option.map_some, et]
  · intro h0
    obtain ⟨hA, -⟩ := C18_headers p q strip chg sb out hv.sized hv.shaped fa (by have := hv.stub; omega) h
    refine ⟨by rw [f6]; exact (hA h0).1, ?_⟩
    obtain ⟨hq, e1, -⟩ := rebuildPe_ok hv.sized fa h
    obtain ⟨D, N, R, S, B, data, ho, hD, hDl, -⟩ := out_parts hv.sized hv.shaped fa h
    subst h0
    have hstub : q.stub = p.stub := by rw [e1]; rfl
    have hdos : q.dos = p.dos := by rw [e1]; rfl
    unfold Image.dosBytes at hD
    simp only [Bool.false_eq_true, if_false, hdos, hstub] at hD
    have h60 := hv.shaped.dos
    have hst := hv.stub
    have hal : alignUp64 p.stub.length 4 = ceilTo p.stub.length 4 := alignUp64_eq ⟨2, by decide, rfl⟩ (by omega)
    have hc := ceilTo_ge (x := p.stub.length) (a := 4) (by decide)
    rw [hal] at hD
    rw [f7, ho, hD, List.append_assoc (p.dos ++ _)]
    refine slice_at ?_ ?_
    · rw [List.length_append, leBytes_length, h60]
    · rw [List.length_append, zeros_length]
      unfold Image.ntStart
      simp only [Bool.false_eq_true, if_false]
      omega

/-- The NT headers the loader makes fit their fields. -/
theorem ntOf_inRange (k : Kind) (pre : List (Nat × Nat)) (file : Bytes) (lf : Nat) : (ntOf k pre file lf).InRange k := by
  have hn : (ntOf k pre file lf).numRva < 256 ^ 4 := by
    have := (ntOf_bounds k pre file lf).2.2.2.2.1
    generalize ntOf k pre file lf = h at *
    omega
  revert hn
  unfold ntOf NtHdr.readDirs NtHdr.clampRva
  dsimp only
  generalize slice file lf k.sizeofNtBase = b
  intro hn
  constructor
  · unfold ntFields
    cases k <;>
    · simp only [List.forall_mem_append, List.forall_mem_cons, List.not_mem_nil, false_implies, implies_true, and_true]
      dsimp only [decNt] at hn ⊢
      simp only [rd_lt, hn, and_true]
  · intro hk
    subst hk
    rfl

/-- C19: an image that was loaded (from a file whose sections have a virtual size and do not reach the end of the
    address space, the first one aligned) can be saved and loaded again, if the file written stays below 4 GiB and
    no raw pointer is stale. -/
theorem C19_loaded_saveable (k : Kind) (strict fromMem dbg chg sb : Bool) (pre : List (Nat × Nat)) (hp : pre.length = 16)
    (hd : ∀ d ∈ pre, d.1 < 2 ^ 32 ∧ d.2 < 2 ^ 32) (file : Bytes) (p : Image) (h : load k strict fromMem dbg pre file = .ok p)
    (hfit : ∀ s ∈ p.secs, s.va + s.span p.nt.secAlign < 2 ^ 32) (hvs : ∀ s ∈ p.secs, s.vsize ≠ 0)
    (hal : ∀ s, p.secs.head? = some s → p.nt.secAlign ∣ s.va) (hne : p.secs ≠ [])
    (hst : NoStalePointers p.nt.fileAlign (p.dataStart false (p.savesBound sb)) p.secs)
    (hf : p.FileFits false (p.savesBound sb)) : p.Saveable false chg sb := by
  obtain ⟨hmz, hk, hh⟩ := C15_headers_partial k strict fromMem dbg pre hp file p h
  obtain ⟨hs, -⟩ := C15_sections_partial k strict fromMem dbg pre file p h
  obtain ⟨hvt, hb, -⟩ := C15_valid_table_partial k strict fromMem dbg pre hp file p h hfit hvs hal
  obtain ⟨ok, hnt, hsecs, -, hhd, hlf, hdos, hstub⟩ := load_fields h
  have hlen := ok.len
  have hdl : ∀ d ∈ p.nt.dirs, d.1 < 2 ^ 32 ∧ d.2 < 2 ^ 32 := by
    intro d hdm
    rw [hnt] at hdm
    change d ∈ decDirs _ _ ++ pre.drop _ at hdm
    rcases List.mem_append.mp hdm with h | h
    · unfold decDirs at h
      simp only [List.mem_map] at h
      obtain ⟨i, _, rfl⟩ := h
      exact ⟨rd_lt 4 _ _, rd_lt 4 _ _⟩
    · exact hd d (List.mem_of_mem_drop h)
  have hstl : p.stub.length ≤ 2 ^ 31 - 68 := by
    rw [hstub, slice_length]
    obtain ⟨h1, h2⟩ := hh.lfanew
    omega
  have hok2 := ok
  rw [hnt] at hok2
  have hsf := hok2.facts
  rw [← hnt] at hsf
  have hrange : ∀ s ∈ p.secs, s.InRange ∧ ceilTo s.rawSize p.nt.fileAlign ≤ ceilTo s.vsize p.nt.secAlign ∧ s.vsize ≤ 2 ^ 31 ∧
      s.rawSize ≤ 2 ^ 31 ∧ s.data.length = s.rawSize := by
    intro s hsm
    have hsv := hvs s hsm
    rw [hsecs] at hsm
    obtain ⟨i, hi, rfl⟩ := secsOf_mem hsm
    have f := hsf.2.2.2 i hi
    have ht := ok.table i hi
    have hs31 := ht.2.hdr
    have hrz := f.rawSize
    have hbd := decSec_lt (slice file (tableAt file p.nt + 40 * i) 40)
    change (hdrAt file (tableAt file p.nt) i).vsize < _ ∧ (hdrAt file (tableAt file p.nt) i).rawSize < _ ∧
      (hdrAt file (tableAt file p.nt) i).va < _ ∧ (hdrAt file (tableAt file p.nt) i).rawPtr < _ at hbd
    obtain ⟨-, -, hv31, -, hr31⟩ := hs31
    have hr31' : (mkSec p.nt fromMem file (hdrAt file (tableAt file p.nt) i)).rawSize ≤ 2 ^ 31 := by
      rw [hrz]; split <;> omega
    refine ⟨⟨?_, ?_, ?_, by omega, ?_, ?_, ?_, ?_, ?_, ?_⟩, ?_, ?_, hr31', f.len⟩
    · rw [f.name]
      show (slice (slice file _ 40) 0 8).length = 8
      rw [slice_length, slice_length]
      omega
    · rw [f.vsize]; exact hbd.1
    · rw [f.va]; exact hbd.2.2.1
    · rw [f.rawPtr]; exact hbd.2.2.2
    · rw [f.relPtr]; exact rd_lt 4 _ _
    · rw [f.linePtr]; exact rd_lt 4 _ _
    · rw [f.nReloc]; exact rd_lt 2 _ _
    · rw [f.nLine]; exact rd_lt 2 _ _
    · rw [f.chars]; exact rd_lt 4 _ _
    · rw [hrz, f.vsize]
      split
      · exact ceilTo_room hvt.sa hvt.fa hvt.le
      · omega
    · rw [f.vsize]; exact hv31
  have hbd : p.boundDir.2 < 4294967296 := by
    unfold Image.boundDir
    cases hx : p.nt.dirs[11]? with
    | none => decide
    | some d => exact (hdl d (List.mem_of_getElem? hx)).2
  refine ⟨⟨⟨hh.dirs.2, hh.dirs.1⟩, by omega, ?_, hbd⟩, ⟨?_, fun s hs => (hrange s hs).1.name, fun s hs => (hrange s hs).1.rawSize⟩, ?_, hstl,
    hh.signature, ?_, ?_, hdl, ?_, hvt, hne, fun s hs => (hrange s hs).1, ?_, .inr hh.headers.2, hst, hf⟩
  · have := hh.count.2; omega
  · rw [hdos, slice_length]; omega
  · have e := ok.mz
    rw [← e, hdos]
    unfold rd
    rw [slice_slice (by decide)]
  · have := hh.magic
    rw [this]
    cases p.kind <;> rfl
  · rw [hk, hnt]; exact ntOf_inRange k pre file _
  · have := ok.nt.rel; exact this
  · intro s hsm
    obtain ⟨-, h1, h2, h3, h4⟩ := hrange s hsm
    exact ⟨h4, hvs s hsm, h2, h3, h1⟩

/-! ### Example -/

theorem savedImage_saveable : savedImage.Saveable false true true := by
  have hmem : ∀ s ∈ savedImage.secs, s = { tinySec 30 1024 20 0 with data := (zeros 20).map (· + 7) } ∨
      s = { tinySec 5 1056 4 0 with data := [1, 2, 3, 4] } := by
    intro s hs
    simpa only [savedImage, List.mem_cons, List.not_mem_nil, or_false] using hs
  refine ⟨savedImage_sized, savedImage_shaped, by decide, by decide, rfl, rfl, ⟨by decide, fun h => by cases h⟩, by decide,
    .inl rfl, ⟨⟨4, by decide, rfl⟩, savedImage_pow2, by decide, ?_, by decide, by decide, ⟨by decide, trivial⟩, by decide, by decide, by decide⟩,
    by decide, ?_, by decide, .inl rfl, savedImage_noStale false, by decide⟩
  · intro s hs
    rcases hmem s hs with rfl | rfl <;> constructor <;> decide
  · intro s hs
    rcases hmem s hs with rfl | rfl <;> constructor <;> decide

example : savedImage.Saveable false true true ∧ ∃ q out, savedImage.rebuildPe false true true = .ok (q, out) := by
  refine ⟨savedImage_saveable, ?_⟩
  obtain ⟨⟨q, out⟩, h1, -⟩ := exists_of_okAnd (x := savedImage.rebuildPe false true true) (f := fun _ => true) (by decide +kernel)
  exact ⟨q, out, h1⟩

end PE
