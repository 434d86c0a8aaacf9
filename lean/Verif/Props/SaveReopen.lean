/-
C95: opening a saved file and saving it writes the same file.
-/
import Verif.Props.SaveAgain
import Verif.Props.BoundKept
namespace PE

theorem w32_le' (n : Nat) : w32 n ≤ n := Nat.mod_le _ _

/-- Length and contents of a padded stub. -/
theorem stub_padded {s t : Bytes} (h : t = s ++ List.replicate (ceilTo s.length 4 - s.length) 0) :
    t.length = ceilTo s.length 4 ∧ ceilTo t.length 4 = ceilTo s.length 4 := by
  have hc2 := ceilTo_ge (x := s.length) (a := 4) (by decide)
  have hlen : t.length = ceilTo s.length 4 := by
    rw [h, List.length_append, List.length_replicate]; omega
  refine ⟨hlen, ?_⟩
  rw [hlen]
  obtain ⟨y, hy⟩ := ceilTo_dvd s.length 4
  rw [hy]; unfold ceilTo; rw [if_pos (by omega)]

/-- An image that has the headers and sections of a saved file and yields the same bound import data is saved as this file. -/
theorem reopen_core {p q r : Image} {strip chg sb : Bool} {out : Bytes} {ds : List (Nat × Nat)} (hv : p.Saveable strip chg sb)
    (h : p.rebuildPe strip chg sb = .ok (q, out)) (hn0 : p.nt.numRva ≠ 0) (hk : r.kind = p.kind) (hs : r.secs = q.secs)
    (hn : r.nt = { q.nt with dirs := ds }) (hro : r.nt.DirsOk) (hrb : r.boundDir.2 < 4294967296) (hl : r.hdrData.length < 4294967296)
    (hsv : r.savesBound sb = p.savesBound sb) (hbs : r.boundSize (p.savesBound sb) = p.boundSize (p.savesBound sb))
    (hds : (rebuiltImage r strip chg (p.savesBound sb)).nt.dirs.take p.nt.numRva = q.nt.dirs.take p.nt.numRva)
    (hB : ∀ B, q.boundBytes (p.savesBound sb) (if p.HasBound then p.boundDir.1 else 0) = .ok B →
      (rebuiltImage r strip chg (p.savesBound sb)).boundBytes (p.savesBound sb) (if r.HasBound then r.boundDir.1 else 0) = .ok B)
    (hbr : r.BoundReadable sb) (hrs : r.stub.length < 4294967296)
    (h0 : strip = false → r.dos = p.dos ∧ r.stub = p.stub ++ List.replicate (ceilTo p.stub.length 4 - p.stub.length) 0)
    (h1 : strip = true → r.dos.take 16 = p.dos.take 16 ∧ 16 ≤ r.dos.length) :
    ∃ r2, r.rebuildPe strip chg sb = .ok (r2, out) := by
  have fa := hv.table.fa
  obtain ⟨-, e1, e2, B, data, e3, e4, e5⟩ := rebuildPe_ok hv.sized fa h
  have hst := hv.stub
  have hc := ceilTo_lt (x := p.stub.length) (a := 4) (by decide)
  have hqs : q.secs = placeSecs p.nt.fileAlign (p.dataStart strip (p.savesBound sb)) p.secs := by rw [e1]; rfl
  have hsl : r.secs.length = p.secs.length := by rw [hs, hqs, placeSecs_length]
  have hfa : r.nt.fileAlign = p.nt.fileAlign := by rw [hn, e1]; rfl
  have hsa : r.nt.secAlign = p.nt.secAlign := by rw [hn, e1]; rfl
  have hnr : r.nt.numRva = p.nt.numRva := by rw [hn, e1]; rfl
  have hte : r.tableEnd strip = p.tableEnd strip := by
    unfold Image.tableEnd Image.ntStart
    rw [hk, hnr, hsl]
    cases strip with
    | true => rfl
    | false => rw [(stub_padded (h0 rfl).2).2]
  have hda : r.dataStart strip (p.savesBound sb) = p.dataStart strip (p.savesBound sb) := by
    unfold Image.dataStart; rw [hte, hbs, hfa]
  have hsz : r.Sized := ⟨hro, hrs, by rw [hsl]; exact hv.sized.secs, hrb⟩
  have hdat : ∀ s ∈ r.secs, s.data.length = s.rawSize ∧ s.rawSize ≤ 2 ^ 31 := by
    intro s hm
    rw [hs, hqs] at hm
    obtain ⟨t, ht, x, rfl⟩ := placeSecs_mem hm
    have := hv.sizes t ht
    exact ⟨this.1, this.2.2.2.1⟩
  have hlt : p.tableEnd strip < 4294967296 := by
    have h1 := rawOffset_ge p.nt.fileAlign (p.dataStart strip (p.savesBound sb)) p.secs p.secs.length
    have h2 := tableEnd_le_dataStart hv.table.fa strip (p.savesBound sb)
    have h3 := hv.fits
    unfold Image.FileFits at h3
    omega
  obtain ⟨r2, out2, g⟩ := (C18_completes_iff r strip chg sb hsz (by rw [hfa]; exact fa) (by rw [hnr]; exact hn0)
    ⟨hl, fun s hm => by have := hdat s hm; omega⟩ (by rw [hte]; exact hlt)).mpr ⟨hbr, fun hc s hm => by
      rw [hsv, hda]
      have h5 := placeSecs_head_any p.nt.fileAlign (p.dataStart strip (p.savesBound sb)) p.secs
        (fun v => decide (w32 (p.dataStart strip (p.savesBound sb)) ≤ v))
      have hm' := hm
      rw [hs, hqs] at hm'
      cases hps : p.secs.head? with
      | none =>
        rw [List.head?_eq_none_iff] at hps
        rw [hps] at hm'
        cases hm'
      | some s0 =>
        rw [hm', hps] at h5
        have h6 := e2 hc s0 hps
        simpa [h6] using h5, fun s hm => by have := hdat s hm; omega⟩
  obtain ⟨-, f1, -, B2, data2, f3, f4, f5⟩ := rebuildPe_ok hsz (by rw [hfa]; exact fa) g
  rw [hsv] at f1 f3
  have hBB : B2 = B := by
    have := hB B e3
    rw [← f1, f3] at this
    exact Except.ok.inj this
  have hsec : r2.secs = q.secs := by
    rw [f1]
    show placeSecs r.nt.fileAlign (r.dataStart strip (p.savesBound sb)) r.secs = _
    rw [hfa, hda, hs, hqs, placeSecs_idem]
  have hnt : r2.nt = { q.nt with dirs := r2.nt.dirs } := by
    have hlast : (match r.secs.getLast? with
        | some s => w32 (s.va + s.alignedVS r.nt.secAlign)
        | none => if chg then w32 (r.dataStart strip (p.savesBound sb)) else r.nt.sizeHeaders) = q.nt.sizeImage := by
      have hne : r.secs ≠ [] := by
        intro h0; rw [h0] at hsl; exact hv.some (List.length_eq_zero_iff.mp hsl.symm)
      have h6 := placeSecs_last p.nt.fileAlign (p.dataStart strip (p.savesBound sb)) p.secs (fun s => w32 (s.va + s.alignedVS r.nt.secAlign))
        (fun s x => rfl)
      rw [← hqs, ← hs] at h6
      have h7 : q.nt.sizeImage = (match p.secs.getLast? with
        | some s => w32 (s.va + s.alignedVS p.nt.secAlign)
        | none => if chg then w32 (p.dataStart strip (p.savesBound sb)) else p.nt.sizeHeaders) := by rw [e1]; rfl
      rw [h7, ← hsa]
      rw [List.getLast?_eq_some_getLast hne, List.getLast?_eq_some_getLast hv.some] at h6 ⊢
      simpa using h6
    have hch : (if chg then w32 (r.dataStart strip (p.savesBound sb)) else r.nt.sizeHeaders) = q.nt.sizeHeaders := by
      rw [hda, hn, e1]; cases chg <;> rfl
    have hbc : (if strip then 16 else r.nt.baseOfCode) = q.nt.baseOfCode := by
      rw [hn, e1]; cases strip <;> rfl
    have hns : w16 r.secs.length = q.nt.numSections := by rw [hsl, e1]; rfl
    have hso : w16 (r.kind.sizeofOpt - 8 * (16 - r.nt.numRva)) = q.nt.sizeOptHdr := by rw [hk, hnr, e1]; rfl
    have hall : rebuiltNt r strip chg (p.savesBound sb) = { r.nt with
        baseOfCode := q.nt.baseOfCode, dirs := (rebuiltNt r strip chg (p.savesBound sb)).dirs, sizeHeaders := q.nt.sizeHeaders,
        numSections := q.nt.numSections, sizeImage := q.nt.sizeImage, sizeOptHdr := q.nt.sizeOptHdr } := by
      rw [← hbc, ← hns, ← hso, ← hch, ← hlast]; rfl
    have hr2 : r2.nt = rebuiltNt r strip chg (p.savesBound sb) := by rw [f1]; rfl
    rw [← hr2, hn] at hall
    generalize r2.nt = x at hall ⊢
    exact hall
  have hkk : r2.kind = q.kind := by rw [f1, e1]; exact hk
  have hqn : q.nt.numRva = p.nt.numRva := by rw [e1]; rfl
  have hdos : r2.dosBytes strip ((r.stripDos strip).newLfanew strip) = q.dosBytes strip ((p.stripDos strip).newLfanew strip) := by
    have j1 : r2.dos = r.dos := by rw [f1]; rfl
    have j2 : q.dos = p.dos := by rw [e1]; rfl
    cases strip with
    | false =>
      obtain ⟨i1, i2⟩ := h0 rfl
      obtain ⟨i3, i4⟩ := stub_padded i2
      have j3 : r2.stub = r.stub := by rw [f1]; rfl
      have j4 : q.stub = p.stub := by rw [e1]; rfl
      have a1 : alignUp64 r.stub.length 4 = ceilTo p.stub.length 4 := by
        rw [alignUp64_eq pow2_4 (by omega), i4]
      have a2 : alignUp64 p.stub.length 4 = ceilTo p.stub.length 4 := alignUp64_eq pow2_4 (by omega)
      have a3 : (r.stripDos false).newLfanew false = (p.stripDos false).newLfanew false := by
        show w32 (64 + alignUp (w32 r.stub.length) 4) = w32 (64 + alignUp (w32 p.stub.length) 4)
        rw [w32_id' (n := r.stub.length) (by omega), w32_id' (n := p.stub.length) (by omega), alignUp_of_le pow2_4 (by omega) (by omega), alignUp_of_le pow2_4 (by omega) (by omega), i4]
      unfold Image.dosBytes
      rw [j1, j2, j3, j4, i1, a1, a2, a3, i3, Nat.sub_self, i2]
      simp [zeros]
    | true =>
      obtain ⟨i1, i2⟩ := h1 rfl
      have h60 := hv.shaped.dos
      have j3 : r2.stub = [] := by rw [f1]; rfl
      have j4 : q.stub = [] := by rw [e1]; rfl
      unfold Image.dosBytes
      rw [if_pos rfl, if_pos rfl, j1, j2, j3, j4, List.take_append_of_le_length i2, List.take_append_of_le_length (by omega), i1]
  have hhead : headBytes r2 strip ((r.stripDos strip).newLfanew strip) B2 = headBytes q strip ((p.stripDos strip).newLfanew strip) B := by
    unfold headBytes
    have hd2 : r2.nt.dirs.take r2.nt.numRva = q.nt.dirs.take q.nt.numRva := by
      have : r2.nt.numRva = q.nt.numRva := by rw [hnt]
      rw [this, hqn, f1, hds]
    have hf : ntFields r2.kind r2.nt = ntFields q.kind q.nt := by
      rw [hkk, hnt]; rfl
    rw [hdos, hf, hd2, hsec, hBB]
  rw [hhead, hsec, e4] at f4
  refine ⟨r2, ?_⟩
  rw [g, f5, hhead, ← Except.ok.inj f4, ← e5]

/-- The bound imports, if they are to be saved, lie in the headers (where linkers put them), and the headers written include them;
    or they lie in a section, behind the headers before and after. -/
def Image.BoundStays (p : Image) (strip chg sb : Bool) : Prop :=
  p.HasBound → sb = true →
    (p.boundDir.1 ≤ p.nt.sizeHeaders ∧ 0 < p.boundDir.2 ∧ p.boundDir.1 + p.boundDir.2 ≤ p.hdrData.length ∧
      (chg = true ∨ p.tableEnd strip + p.boundDir.2 ≤ p.nt.sizeHeaders)) ∨
    (p.nt.sizeHeaders < p.boundDir.1 ∧ p.hdrData.length ≤ p.boundDir.1 ∧ (chg = true → p.dataStart strip false < p.boundDir.1))

instance (p : Image) (strip chg sb : Bool) : Decidable (p.BoundStays strip chg sb) := inferInstanceAs (Decidable (_ → _ → _))

theorem loaded_hdr_le {k : Kind} {strict fromMem dbg : Bool} {pre : List (Nat × Nat)} {file : Bytes} {r : Image}
    (h : load k strict fromMem dbg pre file = .ok r) : r.hdrData.length ≤ r.nt.sizeHeaders ∧ r.nt.sizeHeaders < 4294967296 := by
  obtain ⟨-, f1, -, -, f4, -⟩ := load_fields h
  constructor
  · rw [f4, slice_length]
    have : headersLen r.nt file.length r.secs ≤ r.nt.sizeHeaders := by
      unfold headersLen; split <;> exact Nat.min_le_left _ _
    omega
  · rw [f1]
    have := (ntOf_inRange k pre file r.lfanew).all (4, (ntOf k pre file r.lfanew).sizeHeaders) (by
      unfold ntFields; simp)
    simpa using this

theorem unmoved_bytes {x : Image} {save : Bool} (ho : x.nt.DirsOk) (hn : x.nt.numRva ≠ 0) (h : ¬ (save = true ∧ x.HasBound)) (rva : Nat) :
    x.boundBytes save rva = .ok [] := by
  unfold Image.boundBytes Image.boundWanted
  cases save with
  | false => rfl
  | true =>
    rw [if_pos rfl, hasDir_bound ho hn, ok_bind, if_neg (by simpa using fun hb => h ⟨rfl, hb⟩)]

theorem moved_bytes {x : Image} {rva n : Nat} (ho : x.nt.DirsOk) (hn : x.nt.numRva ≠ 0) (hb : x.HasBound) (hs : x.boundDir.2 = n)
    (h0 : 0 < n) (hin : rva + n ≤ x.hdrData.length) : x.boundBytes true rva = .ok (slice x.hdrData rva n) := by
  obtain ⟨-, g2, -⟩ := getDir_stored ho (id := dirBoundImport) hb.1 (boundDir_get ho)
  unfold Image.boundBytes Image.boundWanted Image.ptrFromRva
  rw [if_pos rfl, hasDir_bound ho hn, ok_bind, if_pos (decide_eq_true hb), if_pos ⟨rfl, by omega⟩, ok_bind]
  dsimp only
  rw [g2, ok_bind, hs, readN_ok hin]

/-- C95: a saved file that is opened and saved with the same settings is the same file again: the library reads everything it writes.
    Bound imports that are kept may lie in the headers (and are then moved by the first save) or in a section. -/
theorem C95_reopen_partial (p q : Image) (strip chg sb strict dbg : Bool) (out : Bytes) (pre : List (Nat × Nat))
    (hp : pre.length = 16) (hd : ∀ d ∈ pre, d.1 < 2 ^ 32 ∧ d.2 < 2 ^ 32) (hv : p.Saveable strip chg sb) (hb : p.BoundStays strip chg sb)
    (hn : p.nt.numRva ≠ 0) (h : p.rebuildPe strip chg sb = .ok (q, out)) :
    ∃ r r2, load p.kind strict false dbg pre out = .ok r ∧ r.rebuildPe strip chg sb = .ok (r2, out) := by
  have fa := hv.table.fa
  have hd1 : ∀ d ∈ pre, d.1 < 2 ^ 32 := fun d hm => (hd d hm).1
  obtain ⟨r, hr, k1, k2, k3, -, k5, k6⟩ := C19_save_load p q strip chg sb strict dbg out pre hp hd1 hv h
  obtain ⟨-, e1, -⟩ := rebuildPe_ok hv.sized fa h
  have hnq : q.nt.numRva = p.nt.numRva := by rw [e1]; rfl
  have hdo := rebuilt_dirsOk hv.sized strip chg (p.savesBound sb)
  have hsl := hdo.slots
  rw [← e1] at hdo hsl
  have hcn := hv.sized.dirs.count
  have hrn : r.nt.numRva = p.nt.numRva := by rw [k2]; exact hnq
  have hrd : r.nt.dirs = q.nt.dirs.take p.nt.numRva ++ pre.drop p.nt.numRva := by rw [k2]
  have hrt : r.nt.dirs.take p.nt.numRva = q.nt.dirs.take p.nt.numRva := by
    rw [hrd, List.take_left' (by rw [List.length_take]; omega)]
  have hro : r.nt.DirsOk := by
    refine ⟨?_, by rw [hrn]; exact hcn⟩
    rw [hrd, List.length_append, List.length_take, List.length_drop]; omega
  have hrg : 11 < p.nt.numRva → r.boundDir = q.boundDir := by
    intro h11
    unfold Image.boundDir
    have := congrArg (fun l : List (Nat × Nat) => l[11]?) hrt
    simp only [List.getElem?_take, if_pos h11] at this
    rw [this]
  have hqr := rebuilt_dirsRange hv.dirsRange hv.sized strip chg (p.savesBound sb)
  have hrb : r.boundDir.2 < 4294967296 := by
    have hm := List.mem_of_getElem? (boundDir_get hro)
    rw [hrd] at hm
    rcases List.mem_append.mp hm with hm | hm
    · have := List.mem_of_mem_take hm
      rw [e1] at this
      exact (hqr _ this).2
    · exact (hd _ (List.mem_of_mem_drop hm)).2
  obtain ⟨hl1, hl2⟩ := loaded_hdr_le hr
  obtain ⟨-, f1, f2, f3, f4, f5, f6, f7⟩ := load_fields hr
  have hh := C18_headers p q strip chg sb out hv.sized hv.shaped fa (by have := hv.stub; omega) h
  have hst := hv.stub
  have hfit : p.dataStart strip (p.savesBound sb) < 4294967296 := by
    have h1 := rawOffset_ge p.nt.fileAlign (p.dataStart strip (p.savesBound sb)) p.secs p.secs.length
    have h2 := hv.fits
    unfold Image.FileFits at h2
    omega
  have hte : p.tableEnd strip < 4294967296 := by
    have h2 := tableEnd_le_dataStart fa strip (p.savesBound sb)
    omega
  have hrst : r.stub.length < 4294967296 := by
    rw [f7, slice_length, k5]
    have hc := ceilTo_lt (x := p.stub.length) (a := 4) (by decide)
    unfold Image.ntStart
    split <;> omega
  have hdos : strip = true → r.dos.take 16 = p.dos.take 16 ∧ 16 ≤ r.dos.length := by
    intro h1
    have hol : 60 ≤ out.length := by
      obtain ⟨D, N, R, S, B0, data0, ho, hD, hDl, hN, hNl, -⟩ := out_parts hv.sized hv.shaped fa h
      rw [ho]
      simp only [List.length_append]
      have : 120 ≤ p.kind.sizeofNtBase := by cases p.kind <;> decide
      omega
    have hrl : r.dos.length = 60 := by rw [f6, slice_length]; omega
    refine ⟨?_, by omega⟩
    rw [← (hh.2.1 h1).1, f6]
    unfold slice
    simp [List.take_take]
  have hqh : r.nt.sizeHeaders = if chg then w32 (p.dataStart strip (p.savesBound sb)) else p.nt.sizeHeaders := by
    rw [k2, e1]; rfl
  by_cases hm : p.savesBound sb = true ∧ p.HasBound
  · obtain ⟨hsv, hB⟩ := hm
    have hsb : sb = true := by
      unfold Image.savesBound at hsv
      simp only [Bool.and_eq_true] at hsv
      exact hsv.1
    have hle : ¬ p.boundDir.1 > p.nt.sizeHeaders := by
      intro hg
      unfold Image.savesBound at hsv
      simp [hB, hg] at hsv
    obtain ⟨hs, hin, hc⟩ : 0 < p.boundDir.2 ∧ p.boundDir.1 + p.boundDir.2 ≤ p.hdrData.length ∧
        (chg = true ∨ p.tableEnd strip + p.boundDir.2 ≤ p.nt.sizeHeaders) := by
      rcases hb hB hsb with ⟨-, hs⟩ | ⟨hg, -⟩
      · exact hs
      · exact absurd hg hle
    obtain ⟨-, -, hrdir, hrh, hri, -, hrs⟩ := saved_bound hp hd1 hv h hB hsv hs hin hc hr
    have hpos := tableEnd_pos p strip
    have hrbd : r.boundDir = (p.tableEnd strip, p.boundDir.2) := by
      have := boundDir_get hro
      rw [hrdir] at this
      exact (Option.some.inj this).symm
    have hrB : r.HasBound := ⟨by rw [hrn]; exact hB.1, by rw [hrbd]; dsimp only; omega⟩
    have hqbd : q.boundDir = (p.tableEnd strip, p.boundDir.2) := by rw [← hrg hB.1, hrbd]
    have hqB : q.HasBound := ⟨by rw [hnq]; exact hB.1, by rw [hqbd]; dsimp only; omega⟩
    have hrsv : r.savesBound sb = true := by
      unfold Image.savesBound
      rw [hsb, hrbd]
      have : ¬ p.tableEnd strip > r.nt.sizeHeaders := by omega
      simp [this]
    have hqh' : q.hdrData = p.hdrData := by rw [e1]; rfl
    have hrte : r.tableEnd strip = p.tableEnd strip := by
      unfold Image.tableEnd Image.ntStart
      rw [k1, hrn, k3, show q.secs.length = p.secs.length by rw [e1]; exact placeSecs_length _ _ _]
      cases strip with
      | true => rfl
      | false => rw [(stub_padded (k6 rfl).2).2]
    have hset : (rebuiltImage r strip chg true).nt.dirs = r.nt.dirs := by
      rw [rebuilt_dirs, if_pos ⟨rfl, hrB⟩, hrbd, hrte, w32_id' hte]
      apply List.ext_getElem?
      intro i
      rw [List.getElem?_set]
      split
      · next hi =>
        subst hi
        rw [if_pos (by rw [hro.slots]; decide)]
        exact hrdir.symm
      · rfl
    have hr2d : (rebuiltImage r strip chg true).boundDir = r.boundDir := by unfold Image.boundDir; rw [hset]
    obtain ⟨r2, g⟩ := reopen_core (r := r) hv h hn k1 k3 k2 hro hrb (by omega) (by rw [hrsv, hsv])
      (by unfold Image.boundSize; rw [if_pos ⟨hsv, hrB⟩, if_pos ⟨hsv, hB⟩, hrbd])
      (by rw [hsv, hset, hrt])
      (by
        intro B hBy
        rw [hsv] at hBy ⊢
        rw [if_pos hB, moved_bytes hdo (by rw [hnq]; exact hn) hqB (by rw [hqbd]) hs (by rw [hqh']; exact hin), hqh'] at hBy
        have hro2 : (rebuiltImage r strip chg true).nt.DirsOk := ⟨by rw [hset]; exact hro.slots, hro.count⟩
        have := moved_bytes (x := rebuiltImage r strip chg true) (rva := p.tableEnd strip) (n := p.boundDir.2) hro2
          (show r.nt.numRva ≠ 0 by rw [hrn]; exact hn) ⟨hrB.1, by rw [hr2d]; exact hrB.2⟩ (by rw [hr2d, hrbd]) hs hri
        rw [if_pos hrB, hrbd, this, ← hBy]
        exact congrArg Except.ok hrs)
      (by
        intro _ _
        refine ⟨r.hdrData, r.boundDir.1, ?_, ?_, ?_⟩
        · unfold Image.ptrFromRva; rw [if_pos ⟨rfl, by rw [hrbd]; dsimp only; omega⟩]
        · rw [hrbd]; dsimp only; omega
        · intro _; rw [hrbd]; dsimp only; omega)
      hrst k6 hdos
    exact ⟨r, r2, hr, g⟩
  · have hqd : q.nt.dirs = p.nt.dirs := by rw [e1, rebuilt_dirs, if_neg hm]
    have hqbd : q.boundDir = p.boundDir := by unfold Image.boundDir; rw [hqd]
    have hiff : r.HasBound ↔ p.HasBound := by
      unfold Image.HasBound
      rw [hrn]
      constructor
      · intro ⟨a, b⟩; refine ⟨a, ?_⟩; rw [hrg a, hqbd] at b; exact b
      · intro ⟨a, b⟩; refine ⟨a, ?_⟩; rw [hrg a, hqbd]; exact b
    have hkeep : p.HasBound → sb = true → p.nt.sizeHeaders < p.boundDir.1 ∧ p.hdrData.length ≤ p.boundDir.1 ∧ r.nt.sizeHeaders < p.boundDir.1 := by
      intro hB hsb
      have hg : p.boundDir.1 > p.nt.sizeHeaders := by
        apply Decidable.byContradiction
        intro hg
        exact hm ⟨by unfold Image.savesBound; simp [hsb, hg], hB⟩
      rcases hb hB hsb with ⟨hg2, -⟩ | ⟨-, hg2, hg3⟩
      · omega
      · refine ⟨hg, hg2, ?_⟩
        rw [hqh]
        cases chg with
        | false => exact hg
        | true =>
          have hsf : p.savesBound sb = false := by
            cases hx : p.savesBound sb
            · rfl
            · exact absurd ⟨hx, hB⟩ hm
          have := hg3 rfl
          have h2 := w32_le' (p.dataStart strip (p.savesBound sb))
          rw [hsf] at h2 ⊢
          simp only [if_true]
          omega
    have hrsv : r.savesBound sb = p.savesBound sb := by
      unfold Image.savesBound
      cases sb with
      | false => rfl
      | true =>
        refine congrArg (fun x => true && !x) (decide_eq_decide.mpr ?_)
        constructor
        · intro ⟨a, _⟩; exact ⟨hiff.mp a, (hkeep (hiff.mp a) rfl).1⟩
        · intro ⟨a, _⟩
          refine ⟨hiff.mpr a, ?_⟩
          rw [hrg a.1, hqbd]
          exact (hkeep a rfl).2.2
    have hmr : ¬ (p.savesBound sb = true ∧ r.HasBound) := fun g => hm ⟨g.1, hiff.mp g.2⟩
    have hset : (rebuiltImage r strip chg (p.savesBound sb)).nt.dirs = r.nt.dirs := by rw [rebuilt_dirs, if_neg hmr]
    have hr2d : (rebuiltImage r strip chg (p.savesBound sb)).boundDir = r.boundDir := by unfold Image.boundDir; rw [hset]
    have hqB : q.HasBound → p.HasBound := by
      unfold Image.HasBound; rw [hqbd, hnq]; exact id
    obtain ⟨r2, g⟩ := reopen_core (r := r) hv h hn k1 k3 k2 hro hrb (by omega) hrsv
      (by unfold Image.boundSize; rw [if_neg hmr, if_neg hm])
      (by rw [hset, hrt])
      (by
        intro B hBy
        rw [unmoved_bytes hdo (by rw [hnq]; exact hn) (fun g => hm ⟨g.1, hqB g.2⟩)] at hBy
        have hro2 : (rebuiltImage r strip chg (p.savesBound sb)).nt.DirsOk := ⟨by rw [hset]; exact hro.slots, hro.count⟩
        rw [unmoved_bytes hro2 (show r.nt.numRva ≠ 0 by rw [hrn]; exact hn) (fun g => hmr ⟨g.1, ⟨g.2.1, by have := g.2.2; rw [hr2d] at this; exact this⟩⟩)]
        exact hBy)
      (by
        intro hsb hrB
        have hB := hiff.mp hrB
        obtain ⟨g1, g2, g3⟩ := hkeep hB hsb
        have hbl : p.boundDir.1 < 4294967296 := (hv.dirsRange _ (List.mem_of_getElem? (boundDir_get hv.sized.dirs))).1
        obtain ⟨i1, -⟩ := (C18_completes_iff p strip chg sb hv.sized fa hn ⟨by omega, fun s hm => by have := hv.sizes s hm; omega⟩ hte).mp ⟨q, out, h⟩
        obtain ⟨b, o, i2, i3, -⟩ := i1 hsb hB
        have hrbd : r.boundDir = p.boundDir := by rw [hrg hB.1, hqbd]
        refine ⟨b, o, ?_, by rw [hrbd]; exact i3, fun g => ?_⟩
        · rw [hrbd, ← i2, ← rebuilt_ptrFromRva p strip chg (p.savesBound sb), ← e1]
          unfold Image.ptrFromRva
          rw [if_neg (fun g => by have := g.2; omega), if_neg (fun g => by have := g.2; rw [e1] at this; change _ < p.hdrData.length at this; omega)]
          unfold Image.sectionFromRva
          rw [k3, k2]
        · rw [hrsv] at g
          exact absurd ⟨g, hB⟩ hm)
      hrst k6 hdos
    exact ⟨r, r2, hr, g⟩

/-- The hypotheses of `C95_reopen_partial` hold: the file of an image is opened and saved as the same file. -/
example : ∃ q out r r2, savedImage.rebuildPe false true true = .ok (q, out) ∧ out.length = 324 ∧
    load .pe32 false false false (List.replicate 16 (0, 0)) out = .ok r ∧ r.rebuildPe false true true = .ok (r2, out) := by
  obtain ⟨⟨q, out⟩, h1, h2⟩ := exists_of_okAnd (x := savedImage.rebuildPe false true true) (f := fun r => decide (r.2.length = 324)) (by decide +kernel)
  obtain ⟨r, r2, g1, g2⟩ := C95_reopen_partial savedImage q false true true false false out (List.replicate 16 (0, 0)) (by decide)
    (by intro d hd; rw [List.eq_of_mem_replicate hd]; decide) savedImage_saveable (by decide) (by decide) h1
  exact ⟨q, out, r, r2, h1, by simpa using h2, g1, g2⟩

/-- The same with bound imports in the headers, which the first save moves. -/
example : ∃ q out r r2, (linkedImage 19).HasBound ∧ (linkedImage 19).rebuildPe false true true = .ok (q, out) ∧ q.boundDir ≠ (linkedImage 19).boundDir ∧
    load .pe32 false false false zeroDirs out = .ok r ∧ r.rebuildPe false true true = .ok (r2, out) := by
  obtain ⟨⟨q, out⟩, h1, h2⟩ := exists_of_okAnd (x := (linkedImage 19).rebuildPe false true true)
    (f := fun r => decide (r.1.boundDir ≠ (linkedImage 19).boundDir)) (by decide +kernel)
  obtain ⟨r, r2, g1, g2⟩ := C95_reopen_partial (linkedImage 19) q false true true false false out zeroDirs (by decide)
    (by decide) linkedImage_saveable (by decide) (by decide) h1
  exact ⟨q, out, r, r2, by decide, h1, by simpa using h2, g1, g2⟩

/-- An image whose headers are to stay shorter than what is written into them. -/
def shortImage : Image := { linkedImage 19 with nt := { (linkedImage 19).nt with sizeHeaders := 64 } }

/-- C95 fails when the size of the headers is not updated and does not cover the moved bound imports: the file just written is opened,
    but cannot be saved. -/
theorem C95_reopen_short : ∃ (p q r : Image) (out : Bytes), p.HasBound ∧ p.rebuildPe false false true = .ok (q, out) ∧
    load .pe32 false false false zeroDirs out = .ok r ∧ ∀ x, r.rebuildPe false false true ≠ .ok x := by
  obtain ⟨⟨q, out⟩, h1, h2⟩ := exists_of_okAnd (x := shortImage.rebuildPe false false true)
    (f := fun x => okAnd (load .pe32 false false false zeroDirs x.2) fun r => !okAnd (r.rebuildPe false false true) fun _ => true) (by decide +kernel)
  obtain ⟨r, h3, h4⟩ := exists_of_okAnd h2
  refine ⟨shortImage, q, r, out, by decide, h1, h3, ?_⟩
  intro x hx
  rw [hx] at h4
  cases h4

end PE
