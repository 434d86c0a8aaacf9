/-
Properties of the PE rebuilder (C17, C18).
-/
import Verif.Lemmas.Rebuild
import Verif.Model.Edit
import Verif.Props.Load
namespace PE

/-! ### C17: layout -/

/-- C17: after rebuilding the headers the raw data of the sections are packed in order from the end of the headers
    on: every section with raw data starts at a multiple of the file alignment, behind the headers and behind the
    (rounded up) raw data of all sections before it; nothing else about a section changes. -/
theorem C17_layout (p q : Image) (strip chg save : Bool) (lf : Nat) (hs : p.Sized) (hp : p.Shaped)
    (fa : Pow2 p.nt.fileAlign) (hf : p.FileFits strip save) (h : p.rebuildHeaders strip chg save = .ok (q, lf)) :
    q.secs.length = p.secs.length ∧
    (∀ (i : Nat) (s : Sec), p.secs[i]? = some s → ∃ t : Sec, q.secs[i]? = some t ∧
      t = { s with rawPtr := if s.rawSize = 0 then s.rawPtr else
              rawOffset p.nt.fileAlign (p.dataStart strip save) p.secs i } ∧
      (s.rawSize ≠ 0 → p.nt.fileAlign ∣ t.rawPtr ∧ p.tableEnd strip + p.boundSize save ≤ t.rawPtr)) ∧
    (∀ (i j : Nat) (s t : Sec), i < j → q.secs[i]? = some s → q.secs[j]? = some t → s.rawSize ≠ 0 → t.rawSize ≠ 0 →
      s.rawPtr + ceilTo s.rawSize p.nt.fileAlign ≤ t.rawPtr) := by
  obtain ⟨rfl, -, -⟩ := rebuildHeaders_eq hs fa h
  have hg : ∀ i : Nat, (rebuiltImage p strip chg save).secs[i]? = (p.secs[i]?).map (fun s : Sec => if s.rawSize = 0 then s else
      { s with rawPtr := rawOffset p.nt.fileAlign (p.dataStart strip save) p.secs i }) :=
    fun i => placeSecs_get fa hp.raws hf i
  refine ⟨placeSecs_length _ _ _, ?_, ?_⟩
  · intro i s hi
    refine ⟨{ s with rawPtr := if s.rawSize = 0 then s.rawPtr else
              rawOffset p.nt.fileAlign (p.dataStart strip save) p.secs i }, ?_, rfl, ?_⟩
    · rw [hg i, hi, Option.map_some]
      by_cases h0 : s.rawSize = 0
      · rw [if_pos h0, if_pos h0]
      · rw [if_neg h0, if_neg h0]
    · intro h0
      dsimp only
      rw [if_neg h0]
      exact ⟨rawOffset_dvd (ceilTo_dvd _ _) _ _,
        Nat.le_trans (tableEnd_le_dataStart fa strip save) (rawOffset_ge _ _ _ _)⟩
  · intro i j s t hij hi hj hs0 ht0
    rw [hg i] at hi
    rw [hg j] at hj
    obtain ⟨a, ha, rfl⟩ := Option.map_eq_some_iff.mp hi
    obtain ⟨b, hb, rfl⟩ := Option.map_eq_some_iff.mp hj
    by_cases ha0 : a.rawSize = 0
    · simp [ha0] at hs0
    by_cases hb0 : b.rawSize = 0
    · simp [hb0] at ht0
    simp only [ha0, hb0, if_false]
    rw [← rawOffset_next ha]
    exact rawOffset_mono hij

/-- C17: the header fields written by the rebuilder; every other field of the image stays as it is. With
    `change_size_of_headers` the headers end (rounded up) where the raw data start and not behind the first section. -/
theorem C17_headers (p q : Image) (strip chg save : Bool) (lf : Nat) (hs : p.Sized) (fa : Pow2 p.nt.fileAlign)
    (hf : p.FileFits strip save) (hst : p.stub.length < 2 ^ 31 - 64) (h : p.rebuildHeaders strip chg save = .ok (q, lf)) :
    q.kind = p.kind ∧ q.dos = p.dos ∧ q.hdrData = p.hdrData ∧ q.debugData = p.debugData ∧
    q.stub = (if strip then [] else p.stub) ∧ (strip = false → lf = p.ntStart false) ∧
    (chg = true → q.nt.sizeHeaders = p.dataStart strip save ∧ ∀ s, p.secs.head? = some s → q.nt.sizeHeaders ≤ s.va) ∧
    (∀ i, i ≠ 11 → q.nt.dirs[i]? = p.nt.dirs[i]?) ∧
    (save = true → p.HasBound → q.boundDir = (p.tableEnd strip, p.boundDir.2)) ∧
    q.nt.sizeOptHdr = p.kind.sizeofOpt - 8 * (16 - p.nt.numRva) ∧
    { q.nt with baseOfCode := p.nt.baseOfCode, sizeHeaders := p.nt.sizeHeaders, numSections := p.nt.numSections,
                sizeImage := p.nt.sizeImage, sizeOptHdr := p.nt.sizeOptHdr, dirs := p.nt.dirs } = p.nt := by
  obtain ⟨rfl, e2, e3⟩ := rebuildHeaders_eq hs fa h
  have hlt : p.dataStart strip save < 4294967296 := by
    have := rawOffset_ge p.nt.fileAlign (p.dataStart strip save) p.secs p.secs.length
    unfold Image.FileFits at hf
    omega
  have hlt2 := tableEnd_le_dataStart fa strip save
  have hw : w32 (p.dataStart strip save) = p.dataStart strip save := Nat.mod_eq_of_lt hlt
  refine ⟨rfl, rfl, rfl, rfl, rfl, ?_, ?_, ?_, ?_, ?_, rfl⟩
  · intro h0
    rw [e2, lf_calc (by omega), h0]
    rfl
  · intro hc
    have : (rebuiltImage p strip chg save).nt.sizeHeaders = p.dataStart strip save := by
      show (if chg then w32 (p.dataStart strip save) else p.nt.sizeHeaders) = _
      rw [if_pos hc, hw]
    rw [this]
    rw [hw] at e3
    exact ⟨rfl, e3 hc⟩
  · intro i hi
    rw [rebuilt_dirs]
    split
    · rw [List.getElem?_set_ne (fun h => hi h.symm)]
    · rfl
  · intro h1 h2
    unfold Image.boundDir
    rw [rebuilt_dirs, if_pos ⟨h1, h2⟩, List.getElem?_set_self (by rw [hs.dirs.slots]; decide)]
    show (w32 (p.tableEnd strip), _) = _
    have : w32 (p.tableEnd strip) = p.tableEnd strip := Nat.mod_eq_of_lt (by omega)
    rw [this]
    rfl
  · show w16 _ = _
    have hk : p.kind.sizeofOpt = 224 ∨ p.kind.sizeofOpt = 240 := by cases p.kind <;> simp [Kind.sizeofOpt]
    unfold w16
    omega

/-! ### C18: bytes -/

/-- C18 (partial: needs `NoStalePointers`, see `C18_stale_pointer_shifts_data`): in the written file the bytes at the
    raw pointer of every section are its raw data (cut or zero padded to `SizeOfRawData`), and every byte behind the
    headers that belongs to no section is zero. -/
theorem C18_data_partial (p q : Image) (strip chg sb : Bool) (out : Bytes) (hs : p.Sized) (hp : p.Shaped)
    (fa : Pow2 p.nt.fileAlign) (hf : p.FileFits strip (p.savesBound sb))
    (hst : NoStalePointers p.nt.fileAlign (p.dataStart strip (p.savesBound sb)) p.secs)
    (h : p.rebuildPe strip chg sb = .ok (q, out)) :
    p.rebuildHeaders strip chg (p.savesBound sb) = .ok (q, (p.stripDos strip).newLfanew strip) ∧
    (∀ s ∈ q.secs, s.rawSize ≠ 0 → s.rawPtr + s.rawSize ≤ out.length ∧
      slice out s.rawPtr s.rawSize = resize s.data s.rawSize) ∧
    (∀ o b, p.tableEnd strip + p.boundSize (p.savesBound sb) ≤ o → out[o]? = some b →
      (∀ s ∈ q.secs, s.rawSize ≠ 0 → o < s.rawPtr ∨ s.rawPtr + s.rawSize ≤ o) → b = 0) ∧
    out.length ≤ rawOffset p.nt.fileAlign (p.dataStart strip (p.savesBound sb)) p.secs p.secs.length := by
  obtain ⟨hq, e1, e2, bound, data, hb, hw, ho⟩ := rebuildPe_ok hs fa h
  have hge := rawOffset_ge p.nt.fileAlign (p.dataStart strip (p.savesBound sb)) p.secs p.secs.length
  have hle := tableEnd_le_dataStart fa strip (p.savesBound sb)
  have hf' : rawOffset p.nt.fileAlign (p.dataStart strip (p.savesBound sb)) p.secs p.secs.length < 4294967296 := hf
  rw [e1] at hb hw
  have hbl := boundBytes_length hs (by omega) hb
  have hhl := headBytes_length hs hp (strip := strip) (chg := chg) (save := p.savesBound sb) ((p.stripDos strip).newLfanew strip) bound
  rw [hbl] at hhl
  have hsecs : q.secs = placeSecs p.nt.fileAlign (p.dataStart strip (p.savesBound sb)) p.secs := by rw [e1]; rfl
  have hsl : q.secs.length = p.secs.length := by rw [hsecs]; exact placeSecs_length _ _ _
  have hpl := placed_placeSecs fa hp.raws hf' hst
  obtain ⟨w1, w2, w3⟩ := writeSecs_spec (head := headBytes (rebuiltImage p strip chg (p.savesBound sb)) strip
    ((p.stripDos strip).newLfanew strip) bound) fa.pos hpl (by rw [hhl]; exact hle) hw
  rw [← hsecs] at w1 w2 w3
  rw [← e1] at w1 w2 w3 hhl
  have hol : out.length = (headBytes q strip ((p.stripDos strip).newLfanew strip) bound).length + data.length := by
    rw [ho, List.length_append]
  rw [← ho, hhl] at w3
  rw [← ho, ← hol] at w2
  refine ⟨hq, w2, w3, ?_⟩
  rw [hol]
  refine Nat.le_trans w1 (Nat.le_of_eq ?_)
  have htot : ∀ (a b : Nat) (l : List Sec), rawOffset a b (placeSecs a b l) (placeSecs a b l).length = rawOffset a b l l.length := by
    intro a b l
    unfold rawOffset
    rw [List.take_length, List.take_length]
    congr 1
    suffices ∀ c, ((placeSecs a c l).map (fun s => ceilTo s.rawSize a)) = l.map (fun s => ceilTo s.rawSize a) by rw [this]
    induction l with
    | nil => intro c; rfl
    | cons s l ih => intro c; unfold placeSecs; split <;> simp [ih]
  rw [hsecs]
  exact htot _ _ _

theorem slice_at {a b c : Bytes} {o n : Nat} (ho : o = a.length) (hn : n = b.length) : slice (a ++ (b ++ c)) o n = b := by
  subst ho; subst hn
  rw [slice_append_right (Nat.le_refl _), Nat.sub_self, slice_append_here rfl]

theorem flatMap_encSec_slice {l : List Sec} (h : ∀ s ∈ l, s.name.length = 8) {i : Nat} {s : Sec} (hi : l[i]? = some s)
    (c : Bytes) : slice (l.flatMap encSec ++ c) (40 * i) 40 = encSec s := by
  induction l generalizing i with
  | nil => simp at hi
  | cons x l ih =>
    have hx := encSec_length (h x (by simp))
    cases i with
    | zero =>
      simp only [List.getElem?_cons_zero, Option.some.injEq] at hi
      subst hi
      simp only [List.flatMap_cons, List.append_assoc]
      exact slice_append_here hx.symm
    | succ i =>
      simp only [List.flatMap_cons, List.append_assoc]
      rw [slice_append_right (by omega), hx, show 40 * (i + 1) - 40 = 40 * i by omega]
      exact ih (fun s hs => h s (by simp [hs])) (by simpa using hi)

/-- The base of code field is the double word at offset 44 of the NT headers. -/
theorem rd_enc_base {k : Kind} {h : NtHdr} (t : Bytes) : rd 4 (encFields (ntFields k h) ++ t) 44 = h.baseOfCode % 256 ^ 4 := by
  have key : ∀ (pre post : List (Nat × Nat)), (pre.map Prod.fst).sum = 44 →
      rd 4 (encFields (pre ++ (4, h.baseOfCode) :: post) ++ t) 44 = h.baseOfCode % 256 ^ 4 := by
    intro pre post hp
    have hl := encFields_length pre
    have : encFields (pre ++ (4, h.baseOfCode) :: post) = encFields pre ++ encFields ((4, h.baseOfCode) :: post) := by
      unfold encFields; rw [List.flatMap_append]
    have h44 : (encFields pre).length = 44 := hl.trans hp
    rw [this, List.append_assoc, rd_skip (Nat.le_of_eq h44), h44, Nat.sub_self, encFields_cons, List.append_assoc]
    exact rd_here 4 h.baseOfCode _
  have e : ntFields k h = (ntFields k h).take 15 ++ (4, h.baseOfCode) :: (ntFields k h).drop 16 := by cases k <;> rfl
  have hw : (((ntFields k h).take 15).map Prod.fst).sum = 44 := by
    rw [List.map_take, ntFields_widths]
    cases k <;> decide
  rw [e]
  exact key _ _ hw

/-- The parts of the written file. -/
theorem out_parts {p q : Image} {strip chg sb : Bool} {out : Bytes} (hs : p.Sized) (hp : p.Shaped)
    (fa : Pow2 p.nt.fileAlign) (h : p.rebuildPe strip chg sb = .ok (q, out)) :
    ∃ D N R S B data : Bytes, out = D ++ (N ++ (R ++ (S ++ (B ++ data)))) ∧
      D = q.dosBytes strip ((p.stripDos strip).newLfanew strip) ∧ D.length = p.ntStart strip ∧
      N = encFields (ntFields p.kind q.nt) ∧ N.length = p.kind.sizeofNtBase ∧
      R = encDirs (q.nt.dirs.take p.nt.numRva) ∧ R.length = 8 * p.nt.numRva ∧
      S = q.secs.flatMap encSec ∧ S.length = 40 * p.secs.length ∧
      q.boundBytes (p.savesBound sb) (if p.HasBound then p.boundDir.1 else 0) = .ok B ∧
      (∀ s ∈ q.secs, s.name.length = 8) := by
  obtain ⟨hq, e1, e2, bound, data, hb, hw, ho⟩ := rebuildPe_ok hs fa h
  have hdo := rebuilt_dirsOk hs strip chg (p.savesBound sb)
  have hn := hs.dirs.count
  have hnames : ∀ s ∈ q.secs, s.name.length = 8 := by
    intro t ht
    rw [e1] at ht
    obtain ⟨s, hs, x, rfl⟩ := placeSecs_mem ht
    exact hp.names s hs
  refine ⟨_, _, _, _, bound, data, ?_, rfl, ?_, rfl, ntFields_length _ _, rfl, ?_, rfl, ?_, hb, hnames⟩
  · rw [ho]
    unfold headBytes
    have e3 : q.kind = p.kind := by rw [e1]; rfl
    have e4 : q.nt.numRva = p.nt.numRva := by rw [e1]; rfl
    rw [e3, e4]
    simp only [List.append_assoc]
  · refine dosBytes_length (p := p) (q := q) (strip := strip) ?_ ?_ hs.stub _
    · rw [e1]; exact hp.dos
    · rw [e1]; rfl
  · rw [encDirs_length, List.length_take, e1, hdo.slots]
    omega
  · rw [flatMap_encSec_length hnames, e1]
    congr 1
    exact placeSecs_length _ _ _

theorem sizeofOpt_eq (k : Kind) (n : Nat) (h : n ≤ 16) : 24 + (k.sizeofOpt - 8 * (16 - n)) = k.sizeofNtBase + 8 * n := by
  have h1 : (Kind.pe32.sizeofNtBase = 120 ∧ Kind.pe32.sizeofOpt = 224) ∧ Kind.pe64.sizeofNtBase = 136 ∧ Kind.pe64.sizeofOpt = 240 := by decide
  cases k
  · rw [h1.1.1, h1.1.2]; omega
  · rw [h1.2.1, h1.2.2]; omega

/-- C18: the headers in the written file: the NT headers of the changed image follow the DOS header and the stub,
    the data directories follow them, and entry `i` of the section table (behind the optional header, whose size is
    in the NT headers) is the header of section `i`. -/
theorem C18_headers (p q : Image) (strip chg sb : Bool) (out : Bytes) (hs : p.Sized) (hp : p.Shaped)
    (fa : Pow2 p.nt.fileAlign) (hst : p.stub.length < 2 ^ 31 - 64) (h : p.rebuildPe strip chg sb = .ok (q, out)) :
    (strip = false → slice out 0 60 = p.dos ∧ rd 4 out 60 = p.ntStart false ∧ slice out 64 p.stub.length = p.stub) ∧
    (strip = true → slice out 0 16 = p.dos.take 16 ∧ rd 4 out 60 = 16) ∧
    slice out (p.ntStart strip) p.kind.sizeofNtBase = encFields (ntFields p.kind q.nt) ∧
    slice out (p.ntStart strip + p.kind.sizeofNtBase) (8 * p.nt.numRva) = encDirs (q.nt.dirs.take p.nt.numRva) ∧
    (∀ (i : Nat) (t : Sec), q.secs[i]? = some t → slice out (p.ntStart strip + 24 + q.nt.sizeOptHdr + 40 * i) 40 = encSec t) := by
  obtain ⟨hq, e1, -⟩ := rebuildPe_ok hs fa h
  obtain ⟨D, N, R, S, B, data, ho, hD, hDl, hN, hNl, hR, hRl, hS, hSl, hB, hnames⟩ := out_parts hs hp fa h
  have hlf := lf_calc (p := p) (by omega) strip
  have hn := hs.dirs.count
  have hopt : q.nt.sizeOptHdr = p.kind.sizeofOpt - 8 * (16 - p.nt.numRva) := by
    rw [e1]
    show w16 _ = _
    have hk : p.kind.sizeofOpt = 224 ∨ p.kind.sizeofOpt = 240 := by cases p.kind <;> simp [Kind.sizeofOpt]
    unfold w16
    omega
  have hso := sizeofOpt_eq p.kind p.nt.numRva hn
  have hdos : q.dos = p.dos := by rw [e1]; rfl
  have hstub : q.stub = if strip then [] else p.stub := by rw [e1]; rfl
  refine ⟨?_, ?_, ?_, ?_, ?_⟩
  · intro h0
    subst h0
    rw [hlf] at hD
    simp only [Bool.false_eq_true, if_false] at hD hstub
    unfold Image.dosBytes at hD
    simp only [Bool.false_eq_true, if_false, hdos, hstub, List.append_assoc] at hD
    have h60 := hp.dos
    rw [ho, hD]
    simp only [List.append_assoc]
    have hc := ceilTo_lt (x := p.stub.length) (a := 4) (by decide)
    refine ⟨slice_append_here h60.symm, ?_, ?_⟩
    · rw [rd_skip (by omega), h60, Nat.sub_self, rd_here]
      refine Nat.mod_eq_of_lt ?_
      unfold Image.ntStart
      simp only [Bool.false_eq_true, if_false]
      omega
    · rw [← List.append_assoc p.dos]
      exact slice_at (by simp [h60]) rfl
  · intro h0
    subst h0
    simp only [if_true] at hstub
    unfold Image.dosBytes at hD
    simp only [if_true, hdos, hstub] at hD
    have h60 := hp.dos
    have hz : alignUp64 ([] : Bytes).length 4 - ([] : Bytes).length = 0 := by decide
    rw [hz, zeros_zero, List.append_nil, List.append_nil, List.take_append_of_le_length (by omega)] at hD
    have hl16 : (p.dos.take 16).length = 16 := by rw [List.length_take]; omega
    rw [ho, hD]
    refine ⟨slice_append_here hl16.symm, ?_⟩
    rw [rd_skip (by omega), hl16]
    have hb : q.nt.baseOfCode = 16 := by rw [e1]; rfl
    rw [hN]
    have hnth := fun (t : Bytes) => rd_enc_base (k := p.kind) (h := q.nt) t
    rw [hnth, hb]
  · rw [ho]; exact slice_at hDl.symm hNl.symm |>.trans hN
  · rw [ho, ← List.append_assoc D]
    exact (slice_at (by rw [List.length_append, hDl, hNl]) hRl.symm).trans hR
  · intro i t hi
    have hoff : p.ntStart strip + 24 + q.nt.sizeOptHdr + 40 * i = (D ++ (N ++ R)).length + 40 * i := by
      rw [List.length_append, List.length_append, hDl, hNl, hRl, hopt]
      omega
    rw [ho, hoff, ← List.append_assoc N, ← List.append_assoc D, slice_append_right (by omega),
      Nat.add_sub_cancel_left, hS]
    exact flatMap_encSec_slice hnames hi _


theorem placeSecs_find {α : Type} {P : Sec → Bool} {g : Sec → α} (hP : ∀ s x, P { s with rawPtr := x } = P s)
    (hg : ∀ s x, g { s with rawPtr := x } = g s) (fa ptr : Nat) (l : List Sec) :
    ((placeSecs fa ptr l).find? P).map g = (l.find? P).map g := by
  induction l generalizing ptr with
  | nil => rfl
  | cons s l ih =>
    unfold placeSecs
    split
    · rw [List.find?_cons, List.find?_cons, hP]
      cases P s
      · exact ih _
      · exact congrArg some (hg s _)
    · rw [List.find?_cons, List.find?_cons]
      cases P s
      · exact ih _
      · rfl

/-- Moving raw pointers does not change what is read by address. -/
theorem rebuilt_ptrFromRva (p : Image) (strip chg save : Bool) (rva : Nat) (h : Bool) :
    (rebuiltImage p strip chg save).ptrFromRva rva .raw h = p.ptrFromRva rva .raw h := by
  unfold Image.ptrFromRva Image.sectionFromRva
  have e0 : (rebuiltImage p strip chg save).hdrData = p.hdrData := by unfold rebuiltImage; dsimp only
  rw [e0]
  congr 1
  have := placeSecs_find (P := fun s => s.containsRva p.nt.secAlign rva) (g := fun s => (s.data, rva - s.va))
    (fun _ _ => rfl) (fun _ _ => rfl) p.nt.fileAlign (p.dataStart strip save) p.secs
  have e1 : (rebuiltImage p strip chg save).secs = placeSecs p.nt.fileAlign (p.dataStart strip save) p.secs := by
    unfold rebuiltImage; dsimp only
  have e2 : (rebuiltImage p strip chg save).nt.secAlign = p.nt.secAlign := by
    unfold rebuiltImage rebuiltNt; dsimp only
  rw [e1, e2]
  cases h1 : (placeSecs p.nt.fileAlign (p.dataStart strip save) p.secs).find? (fun s => s.containsRva p.nt.secAlign rva) with
  | none =>
    rw [h1] at this
    cases h2 : p.secs.find? (fun s => s.containsRva p.nt.secAlign rva) with
    | none => rfl
    | some s => rw [h2] at this; simp at this
  | some t =>
    rw [h1] at this
    cases h2 : p.secs.find? (fun s => s.containsRva p.nt.secAlign rva) with
    | none => rw [h2] at this; simp at this
    | some s =>
      rw [h2] at this
      simp only [Option.map_some, Option.some.injEq] at this
      simp only [ok_bind, Sec.view]
      exact congrArg Except.ok this

/-- C18: if the bound import directory is carried over, the bytes behind the section table are the bytes found at
    its address in the original image. -/
theorem C18_bound (p q : Image) (strip chg sb : Bool) (out : Bytes) (hs : p.Sized) (hp : p.Shaped)
    (fa : Pow2 p.nt.fileAlign) (hf : p.FileFits strip (p.savesBound sb)) (h : p.rebuildPe strip chg sb = .ok (q, out))
    (hb : p.HasBound) (hsv : p.savesBound sb = true) :
    q.boundDir = (p.tableEnd strip, p.boundDir.2) ∧
    ∃ b o, p.ptrFromRva p.boundDir.1 .raw true = .ok (b, o) ∧ o + p.boundDir.2 ≤ b.length ∧
      slice out (p.tableEnd strip) p.boundDir.2 = slice b o p.boundDir.2 := by
  obtain ⟨hq, e1, -⟩ := rebuildPe_ok hs fa h
  obtain ⟨D, N, R, S, B, data, ho, hD, hDl, hN, hNl, hR, hRl, hS, hSl, hB, hnames⟩ := out_parts hs hp fa h
  rw [e1, if_pos hb, hsv] at hB
  have hpos := tableEnd_pos p strip
  have hdo := rebuilt_dirsOk hs strip chg true
  have hlt : p.tableEnd strip < 4294967296 := by
    have := rawOffset_ge p.nt.fileAlign (p.dataStart strip (p.savesBound sb)) p.secs p.secs.length
    have := tableEnd_le_dataStart fa strip (p.savesBound sb)
    unfold Image.FileFits at hf
    omega
  have hw32 : w32 (p.tableEnd strip) = p.tableEnd strip := Nat.mod_eq_of_lt hlt
  have hd : (rebuiltImage p strip chg true).nt.dirs[dirBoundImport]? = some (p.tableEnd strip, p.boundDir.2) := by
    rw [rebuilt_dirs, if_pos ⟨rfl, hb⟩, hw32]
    exact List.getElem?_set_self (by rw [hs.dirs.slots]; decide)
  have hBl := boundBytes_length hs hlt hB
  refine ⟨?_, ?_⟩
  · unfold Image.boundDir
    rw [e1, hsv]
    exact congrArg (fun x => Option.getD x (0, 0)) hd
  · unfold Image.boundBytes at hB
    obtain ⟨w, hw, hB⟩ := bind_ok_iff.mp hB
    obtain ⟨g1, g2, g3⟩ := getDir_stored hdo (id := dirBoundImport) hb.1 hd
    unfold Image.boundWanted Image.hasDir at hw
    rw [if_pos rfl, g3] at hw
    replace hw := Except.ok.inj hw
    have hwt : w = true := by
      rw [← hw]; simp only [decide_eq_true_eq]; omega
    subst hwt
    simp only [if_true] at hB
    obtain ⟨⟨bb, o⟩, hptr, hB⟩ := bind_ok_iff.mp hB
    obtain ⟨size, hsz, hB⟩ := bind_ok_iff.mp hB
    rw [rebuilt_ptrFromRva] at hptr
    rw [g2] at hsz
    replace hsz := Except.ok.inj hsz
    dsimp only at hB hsz
    unfold readN at hB
    split at hB
    · next hle =>
      rw [← hsz] at hle hB
      refine ⟨bb, o, hptr, hle, ?_⟩
      have hn := sizeofNtBase_eq p.kind p.nt.numRva hs.dirs.count
      have hoff : p.tableEnd strip = (D ++ (N ++ (R ++ S))).length := by
        simp only [List.length_append, hDl, hNl, hRl, hSl]
        unfold Image.tableEnd
        omega
      rw [Except.ok.inj hB, ho]
      have e : D ++ (N ++ (R ++ (S ++ (B ++ data)))) = (D ++ (N ++ (R ++ S))) ++ (B ++ data) := by
        simp only [List.append_assoc]
      rw [e]
      refine slice_at hoff ?_
      rw [← Except.ok.inj hB, slice_length_of_le hle]
    · simp at hB

/-- C18: the rebuilder succeeds when every section holds the raw data its header announces (the terminating zero of
    the string counts), no bound import directory is carried over, and the headers fit in front of the first section
    (if their size is updated). -/
theorem C18_completes (p : Image) (strip chg sb : Bool) (hs : p.Sized) (fa : Pow2 p.nt.fileAlign)
    (hn : p.nt.numRva ≠ 0) (hb : ¬ p.HasBound) (hr : ∀ s ∈ p.secs, s.rawSize ≤ s.data.length + 1)
    (hc : chg = true → ∀ s, p.secs.head? = some s → p.dataStart strip false ≤ s.va) :
    ∃ q out, p.rebuildPe strip chg sb = .ok (q, out) := by
  have hno : p.hasDir dirBoundImport = .ok false := by
    unfold Image.hasDir
    rcases hasBound_dir hs.dirs (id := dirBoundImport) with he | he
    · rw [he, if_neg hn]
      refine congrArg Except.ok (decide_eq_false ?_)
      exact hb
    · exact absurd he (by decide)
  have hbw : ∀ b, p.boundWanted b = .ok false := by
    intro b; unfold Image.boundWanted; rw [hno]; split <;> rfl
  have hs1 : p.checkBound sb = .ok () := by
    unfold Image.checkBound; rw [hbw, ok_bind]; rfl
  have hs2 : p.boundRva = .ok 0 := by
    unfold Image.boundRva; rw [hno, ok_bind]; rfl
  have hbz : ∀ b, p.boundSize b = 0 := by intro b; unfold Image.boundSize; rw [if_neg (fun h => hb h.2)]
  have hstripw : ∀ b, (p.stripDos strip).boundWanted b = .ok false := by
    intro b
    have : (p.stripDos strip).boundWanted b = p.boundWanted b := by
      unfold Image.boundWanted Image.hasDir
      rw [stripDos_nt]
      rfl
    rw [this, hbw]
  have hhead : (p.stripDos strip).secs = p.secs := by cases strip <;> rfl
  have hfa' : (p.stripDos strip).nt.fileAlign = p.nt.fileAlign := by cases strip <;> rfl
  have hds : ∀ b, ∃ q lf, p.rebuildHeaders strip chg b = .ok (q, lf) := by
    intro b
    unfold Image.rebuildHeaders
    dsimp only
    rw [hstripw, ok_bind]
    unfold NtHdr.placeBound
    simp only [Bool.false_eq_true, if_false]
    rw [ok_bind]
    dsimp only
    rw [ptr_calc hs, hhead, hfa']
    have hle : ¬ (chg = true ∧ p.secs.head?.any (fun s => decide (w32 (alignUp64 (p.tableEnd strip) p.nt.fileAlign) > s.va)) = true) := by
      rintro ⟨h1, h2⟩
      cases hh : p.secs.head? with
      | none => rw [hh] at h2; simp at h2
      | some s =>
        rw [hh] at h2
        simp only [Option.any_some, decide_eq_true_eq] at h2
        have h3 := hc h1 s hh
        have h4 : alignUp64 (p.tableEnd strip) p.nt.fileAlign = p.dataStart strip false := by
          unfold Image.dataStart
          rw [hbz, Nat.add_zero]
          have h1 := hs.stub
          have h2 := hs.secs
          have hc := ceilTo_lt (x := p.stub.length) (a := 4) (by decide)
          have hk : p.kind.sizeofNt = 248 ∨ p.kind.sizeofNt = 264 := by cases p.kind <;> simp [Kind.sizeofNt]
          refine alignUp64_eq fa ?_
          unfold Image.tableEnd Image.ntStart
          split <;> omega
        rw [h4] at h2
        have : w32 (p.dataStart strip false) ≤ p.dataStart strip false := Nat.mod_le _ _
        omega
    unfold throwIf
    rw [if_neg hle, ok_bind]
    exact ⟨_, _, rfl⟩
  have hsvb : p.savesBound sb = (sb && !decide ((0 : Nat) ≠ 0 ∧ 0 > p.nt.sizeHeaders)) := by
    unfold Image.savesBound
    have h1 : decide (p.HasBound ∧ p.boundDir.1 > p.nt.sizeHeaders) = false := by
      rw [decide_eq_false_iff_not]; exact fun h => hb h.1
    have h2 : decide ((0 : Nat) ≠ 0 ∧ 0 > p.nt.sizeHeaders) = false := by
      rw [decide_eq_false_iff_not]; omega
    rw [h1, h2]
  obtain ⟨q, lf, hq⟩ := hds (p.savesBound sb)
  have hq' := hq
  obtain ⟨e1, -, -⟩ := rebuildHeaders_eq hs fa hq
  have hdo := rebuilt_dirsOk hs strip chg (p.savesBound sb)
  unfold Image.rebuildPe
  rw [hs1, ok_bind, hs2, ok_bind]
  dsimp only
  rw [← hsvb, hq, ok_bind]
  dsimp only
  have hhb : q.headerBytes = .ok (encFields (ntFields q.kind q.nt) ++ encDirs (q.nt.dirs.take q.nt.numRva) ++ q.secs.flatMap encSec) := by
    unfold Image.headerBytes
    have : q.nt.numRva = p.nt.numRva := by rw [e1]; rfl
    have := hs.dirs.count
    rw [if_neg (by omega)]
  have hqd : q.nt.dirs = p.nt.dirs := by
    rw [e1, rebuilt_dirs, if_neg (fun h => hb h.2)]
  have hbb : q.boundBytes (p.savesBound sb) 0 = .ok [] := by
    unfold Image.boundBytes
    have : q.boundWanted (p.savesBound sb) = .ok false := by
      have h2 : q.hasDir dirBoundImport = p.hasDir dirBoundImport := by
        unfold Image.hasDir NtHdr.directoryExists NtHdr.dirAt
        rw [hqd, e1]
        rfl
      unfold Image.boundWanted
      rw [h2, hno]
      split <;> rfl
    rw [this, ok_bind]
    rfl
  rw [hhb, ok_bind, hbb, ok_bind]
  obtain ⟨r, hr⟩ := writeSecs_ok (q.dosBytes strip lf ++ (encFields (ntFields q.kind q.nt) ++ encDirs (q.nt.dirs.take q.nt.numRva) ++
    q.secs.flatMap encSec ++ [])).length q.secs (by
      intro t ht
      rw [e1] at ht
      obtain ⟨s, hs, x, rfl⟩ := placeSecs_mem ht
      exact hr s hs)
  rw [hr, ok_bind]
  exact ⟨_, _, rfl⟩

/-! ### Examples and counterexamples -/

/-- A PE32 image with a stub, two directories and two sections of 20 and 4 bytes of raw data. -/
def savedImage : Image :=
  { kind := .pe32, dos := [0x4d, 0x5a] ++ zeros 58, lfanew := 64, stub := [1, 2, 3],
    nt := { tinyNt 2 1088 0 with
      numRva := 2, dirs := (1040, 8) :: List.replicate 15 (0, 0) },
    secs := [{ tinySec 30 1024 20 0 with data := (zeros 20).map (· + 7) }, { tinySec 5 1056 4 0 with data := [1, 2, 3, 4] }] }

theorem savedImage_sized : savedImage.Sized := ⟨⟨rfl, by decide⟩, by decide, by decide, by decide⟩

theorem savedImage_shaped : savedImage.Shaped := by
  refine ⟨rfl, ?_, ?_⟩ <;>
  · intro s hs
    simp only [savedImage, List.mem_cons, List.not_mem_nil, or_false] at hs
    rcases hs with rfl | rfl <;> decide

theorem savedImage_pow2 : Pow2 savedImage.nt.fileAlign := ⟨4, by decide, rfl⟩

theorem savedImage_noStale (strip : Bool) :
    NoStalePointers savedImage.nt.fileAlign (savedImage.dataStart strip (savedImage.savesBound true)) savedImage.secs := by
  intro i s hi h0
  have hm := List.mem_of_getElem? hi
  simp only [savedImage, List.mem_cons, List.not_mem_nil, or_false] at hm
  rcases hm with rfl | rfl <;> exact absurd h0 (by decide)

example : savedImage.FileFits false (savedImage.savesBound true) ∧ savedImage.FileFits true (savedImage.savesBound true) ∧
    ∃ q lf, savedImage.rebuildHeaders false true (savedImage.savesBound true) = .ok (q, lf) ∧
      q.secs.map (fun s => s.rawPtr) = [288, 320] ∧ q.nt.sizeHeaders = 288 := by
  refine ⟨by decide, by decide, ?_⟩
  obtain ⟨⟨q, lf⟩, h1, h2⟩ := exists_of_okAnd (x := savedImage.rebuildHeaders false true (savedImage.savesBound true))
    (f := fun r => decide (r.1.secs.map (fun s => s.rawPtr) = [288, 320]) && decide (r.1.nt.sizeHeaders = 288)) (by decide +kernel)
  simp only [Bool.and_eq_true, decide_eq_true_eq] at h2
  exact ⟨q, lf, h1, h2.1, h2.2⟩

example : ∃ q out, savedImage.rebuildPe false true true = .ok (q, out) ∧ out.length = 324 ∧ slice out 288 4 = [7, 7, 7, 7] ∧
    slice out 320 4 = [1, 2, 3, 4] ∧ rd 4 out 60 = 68 := by
  obtain ⟨⟨q, out⟩, h1, h2⟩ := exists_of_okAnd (x := savedImage.rebuildPe false true true)
    (f := fun r => decide (r.2.length = 324) && decide (slice r.2 288 4 = [7, 7, 7, 7]) && decide (slice r.2 320 4 = [1, 2, 3, 4]) &&
      decide (rd 4 r.2 60 = 68)) (by decide +kernel)
  simp only [Bool.and_eq_true, decide_eq_true_eq] at h2
  exact ⟨q, out, h1, h2.1.1.1, h2.1.1.2, h2.1.2, h2.2⟩

example : savedImage.nt.numRva ≠ 0 ∧ ¬ savedImage.HasBound ∧ (∀ s ∈ savedImage.secs, s.rawSize ≤ s.data.length + 1) ∧
    (∀ s, savedImage.secs.head? = some s → savedImage.dataStart true false ≤ s.va) := by
  refine ⟨by decide, by decide, by decide, ?_⟩
  intro s hs
  simp only [savedImage, List.head?_cons, Option.some.injEq] at hs
  subst hs; decide

/-- An image with a bound import directory of 8 bytes inside the headers. -/
def boundImage : Image :=
  { savedImage with
    hdrData := zeros 32 ++ [1, 2, 3, 4, 5, 6, 7, 8],
    nt := { savedImage.nt with numRva := 12, sizeHeaders := 512, dirs := List.replicate 11 (0, 0) ++ [(32, 8)] ++ List.replicate 4 (0, 0) } }

example : boundImage.HasBound ∧ boundImage.savesBound true = true ∧ boundImage.FileFits false true ∧
    ∃ q out, boundImage.rebuildPe false true true = .ok (q, out) ∧ q.boundDir = (364, 8) ∧
      slice out 364 8 = [1, 2, 3, 4, 5, 6, 7, 8] := by
  refine ⟨by decide, by decide, by decide, ?_⟩
  obtain ⟨⟨q, out⟩, h1, h2⟩ := exists_of_okAnd (x := boundImage.rebuildPe false true true)
    (f := fun r => decide (r.1.boundDir = (364, 8)) && decide (slice r.2 364 8 = [1, 2, 3, 4, 5, 6, 7, 8])) (by decide +kernel)
  simp only [Bool.and_eq_true, decide_eq_true_eq] at h2
  exact ⟨q, out, h1, h2.1, h2.2⟩

/-- C18 fails for a section without raw data whose raw pointer is not cleared (nothing in the library clears it): the
    padding is written up to that pointer, so the data of the following sections end up behind their raw pointers. -/
theorem C18_stale_pointer_shifts_data : ∃ (p q : Image) (out : Bytes) (s : Sec),
    p.Sized ∧ Pow2 p.nt.fileAlign ∧ p.rebuildPe false true true = .ok (q, out) ∧ s ∈ q.secs ∧ s.rawSize = s.data.length ∧
    s.rawSize ≠ 0 ∧ slice out s.rawPtr s.rawSize ≠ s.data := by
  obtain ⟨⟨q, out⟩, h1, h2⟩ := exists_of_okAnd (x := Image.rebuildPe { savedImage with
      secs := [tinySec 30 1024 0 400, { tinySec 5 1056 4 0 with data := [1, 2, 3, 4] }] } false true true)
    (f := fun r => r.1.secs[1]?.any (fun s : Sec => decide (s.rawSize = s.data.length) && decide (s.rawSize ≠ 0) &&
      decide (slice r.2 s.rawPtr s.rawSize ≠ s.data))) (by decide +kernel)
  dsimp only at h2
  cases hs : q.secs[1]? with
  | none => rw [hs] at h2; simp at h2
  | some s =>
    rw [hs] at h2
    simp only [Option.any_some, Bool.and_eq_true, decide_eq_true_eq] at h2
    exact ⟨_, q, out, s, ⟨⟨rfl, by decide⟩, by decide, by decide, by decide⟩, ⟨4, by decide, rfl⟩, h1,
      List.mem_of_getElem? hs, h2.1.1, h2.1.2, h2.2⟩

/-- C18 fails for an image whose section was added with data that are not a multiple of the file alignment:
    `add_section` rounds `SizeOfRawData` up without growing the data, and the rebuilder reads behind their end. -/
theorem C18_added_section_overread : ∃ p : Image,
    (createImage .pe64 0x1000 false 3).addSection { name := zeros 8, data := [1, 2, 3] } = .ok p ∧
    p.rebuildPe false true true = .error (.ub .oobRead) := by
  obtain ⟨p, h1, h2⟩ := exists_of_okAnd (x := (createImage .pe64 0x1000 false 3).addSection { name := zeros 8, data := [1, 2, 3] })
    (f := fun p => match p.rebuildPe false true true with | .error (.ub .oobRead) => true | _ => false) (by decide +kernel)
  refine ⟨p, h1, ?_⟩
  split at h2
  · next h => exact h
  · simp at h2

/-- C18 fails for more than 16 directories: the NT headers written are larger than the structure. -/
theorem C18_many_dirs_overread : ∃ p : Image, p.nt.numRva = 17 ∧ p.rebuildPe false false false = .error (.ub .oobRead) := by
  obtain h2 : (match Image.rebuildPe { savedImage with nt := { savedImage.nt with numRva := 17 } } false false false with
    | .error (.ub .oobRead) => true | _ => false) = true := by decide +kernel
  refine ⟨{ savedImage with nt := { savedImage.nt with numRva := 17 } }, rfl, ?_⟩
  split at h2
  · next h => exact h
  · simp at h2

end PE
