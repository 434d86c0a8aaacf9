/-
C99: has_overlay, and bytes appended to a file.
-/
import Verif.Props.SaveReopen
namespace PE

/-! ### What has_overlay says about a file -/

/-- Position of entry `i` of the section table of a file (independent of the loader): PE header, 24 bytes of signature and file header,
    optional header, 40 bytes per section. -/
def entryAt (file : Bytes) (i : Nat) : Nat := rd 4 file 60 + 24 + rd 2 file (rd 4 file 60 + 20) + 40 * i

theorem ntOf_counts {k : Kind} {pre : List (Nat × Nat)} {file : Bytes} {lf : Nat} :
    (ntOf k pre file lf).numSections = rd 2 file (lf + 6) ∧ (ntOf k pre file lf).sizeOptHdr = rd 2 file (lf + 20) := by
  have hb : 120 ≤ k.sizeofNtBase := by cases k <;> decide
  simp only [ntOf, NtHdr.readDirs, NtHdr.clampRva, decNt]
  exact ⟨rd_slice (by omega), rd_slice (by omega)⟩

theorem tableAt_eq {k : Kind} {pre : List (Nat × Nat)} {file : Bytes} (hlf : rd 4 file 60 < 2147483648) (i : Nat) :
    tableAt file (ntOf k pre file (rd 4 file 60)) + 40 * i = entryAt file i := by
  unfold tableAt entryAt
  rw [ntOf_counts.2]
  have : rd 2 file (rd 4 file 60 + 20) < 65536 := rd_lt 2 _ _
  rw [w32_id' (by omega)]
  omega

theorem lastRawOf_snoc (l : List Nat) (x c : Nat) (h : x ≠ 0) : lastRawOf (l ++ [x]) c = x := by
  induction l generalizing c with
  | nil => simp [lastRawOf, h]
  | cons a l ih => exact ih _

theorem overlay_debug (k : Kind) (fromMem : Bool) (pre : List (Nat × Nat)) (file : Bytes) (d : List (Nat × Bytes)) :
    ({ imageOf k fromMem pre file with debugData := d } : Image).hasOverlay =
      overlayTest file.length (secsOf (ntOf k pre file (rd 4 file 60)) fromMem file)
        (lastRawOf ((List.range (ntOf k pre file (rd 4 file 60)).numSections).map
          (fun i => (hdrAt file (tableAt file (ntOf k pre file (rd 4 file 60))) i).rawSize)) 0) := by
  have e : ∀ q : Image, ({ q with debugData := d } : Image).hasOverlay = q.hasOverlay := fun _ => rfl
  rw [e]
  unfold imageOf
  dsimp only

/-- C99: an image opened from a file whose last section has raw data says that there is an overlay exactly if the file goes on behind
    the raw data of that section, as recorded in the section table of the file. -/
theorem C99_overlay_partial (k : Kind) (strict fromMem dbg : Bool) (pre : List (Nat × Nat)) (file : Bytes) (r : Image) (n : Nat)
    (h : load k strict fromMem dbg pre file = .ok r) (hn : rd 2 file (rd 4 file 60 + 6) = n + 1) (h0 : rd 4 file (entryAt file n + 16) ≠ 0) :
    r.hasOverlay = true ↔ rd 4 file (entryAt file n + 20) + rd 4 file (entryAt file n + 16) < file.length := by
  obtain ⟨ok, d, hr⟩ := load_iff h
  rw [hr, overlay_debug]
  clear hr h
  have hns : (ntOf k pre file (rd 4 file 60)).numSections = n + 1 := by rw [ntOf_counts.1, hn]
  have hte := tableAt_eq (k := k) (pre := pre) ok.lf n
  obtain ⟨hin, hso⟩ := ok.table n (by omega)
  have hhd := hso.hdr
  have hrs : (hdrAt file (tableAt file (ntOf k pre file (rd 4 file 60))) n).rawSize = rd 4 file (entryAt file n + 16) := by
    show rd 4 (slice file _ 40) 16 = _
    rw [hte, rd_slice (by omega)]
  have hrp : (hdrAt file (tableAt file (ntOf k pre file (rd 4 file 60))) n).rawPtr = rd 4 file (entryAt file n + 20) := by
    show rd 4 (slice file _ 40) 20 = _
    rw [hte, rd_slice (by omega)]
  have hlast : lastRawOf ((List.range (n + 1)).map (fun i => (hdrAt file (tableAt file (ntOf k pre file (rd 4 file 60))) i).rawSize)) 0 =
      rd 4 file (entryAt file n + 16) := by
    rw [List.range_succ, List.map_append, List.map_singleton, hrs, lastRawOf_snoc _ _ _ h0]
  unfold overlayTest secsOf
  rw [hns, hlast, List.getLast?_map, List.range_succ, List.getLast?_concat]
  simp only [Option.map_some, decide_eq_true_eq]
  have hmk : ∀ s, (mkSec (ntOf k pre file (rd 4 file 60)) fromMem file s).rawPtr = s.rawPtr := by
    intro s
    unfold mkSec rawSec fixRaw
    split
    · split <;> rfl
    · rfl
  rw [hmk, hrp]
  have := hhd.2.2.2.1
  rw [hrs, hrp] at this
  rw [w32_id' this]

/-- C99: no sections, no overlay. -/
theorem C99_no_sections (k : Kind) (strict fromMem dbg : Bool) (pre : List (Nat × Nat)) (file : Bytes) (r : Image)
    (h : load k strict fromMem dbg pre file = .ok r) (hn : rd 2 file (rd 4 file 60 + 6) = 0) : r.hasOverlay = false := by
  obtain ⟨ok, d, hr⟩ := load_iff h
  rw [hr, overlay_debug]
  unfold overlayTest secsOf
  rw [ntOf_counts.1, hn]
  rfl

/-! ### Appending bytes to a file -/

theorem rd_append_left {n o : Nat} {a x : Bytes} (h : o + n ≤ a.length) : rd n (a ++ x) o = rd n a o := by
  unfold rd; rw [slice_append_left h]

theorem ntOf_append {k : Kind} {pre : List (Nat × Nat)} {file x : Bytes} {lf : Nat}
    (h : lf + k.sizeofNtBase + 8 * (ntOf k pre file lf).numRva ≤ file.length) : ntOf k pre (file ++ x) lf = ntOf k pre file lf := by
  unfold ntOf at h ⊢
  dsimp only at h ⊢
  rw [slice_append_left (a := file) (off := lf) (by omega)]
  generalize (decNt k (slice file lf k.sizeofNtBase) pre).clampRva = c at *
  have : (c.readDirs (slice file (lf + k.sizeofNtBase) (8 * c.numRva))).numRva = c.numRva := rfl
  rw [this] at h
  rw [slice_append_left h]

theorem rawSec_append {h : NtHdr} {strict fromMem : Bool} {file x : Bytes} {s : Sec} (ok : RawOk h strict fromMem file s) :
    rawSec h fromMem (file ++ x) s = rawSec h fromMem file s := by
  unfold rawSec
  by_cases h0 : s.rawSize = 0
  · rw [h0]; unfold slice; simp
  · rw [slice_append_left (by have := ok.read; omega)]

/-- A file that is acceptable stays so when bytes are appended (below 4 GiB, since sizes are compared in 32 bits), with the same headers
    and sections. -/
theorem fileOk_append {k : Kind} {strict fromMem : Bool} {pre : List (Nat × Nat)} {file x : Bytes} (hl : (file ++ x).length < 4294967296)
    (ok : FileOk k strict fromMem file (ntOf k pre file (rd 4 file 60)) (secsOf (ntOf k pre file (rd 4 file 60)) fromMem file)) :
    rd 4 (file ++ x) 60 = rd 4 file 60 ∧ ntOf k pre (file ++ x) (rd 4 file 60) = ntOf k pre file (rd 4 file 60) ∧
    secsOf (ntOf k pre file (rd 4 file 60)) fromMem (file ++ x) = secsOf (ntOf k pre file (rd 4 file 60)) fromMem file ∧
    (∀ i, i < (ntOf k pre file (rd 4 file 60)).numSections → hdrAt (file ++ x) (tableAt file (ntOf k pre file (rd 4 file 60))) i =
      hdrAt file (tableAt file (ntOf k pre file (rd 4 file 60))) i) ∧
    FileOk k strict fromMem (file ++ x) (ntOf k pre file (rd 4 file 60)) (secsOf (ntOf k pre file (rd 4 file 60)) fromMem file) := by
  have hlf : rd 4 (file ++ x) 60 = rd 4 file 60 := rd_append_left (by have := ok.len; omega)
  have hnt : ntOf k pre (file ++ x) (rd 4 file 60) = ntOf k pre file (rd 4 file 60) := ntOf_append ok.ntlen
  rw [List.length_append] at hl
  generalize ntOf k pre file (rd 4 file 60) = h at *
  have htab : tableAt (file ++ x) h = tableAt file h := by unfold tableAt; rw [hlf]
  have hh : ∀ i, i < h.numSections → hdrAt (file ++ x) (tableAt file h) i = hdrAt file (tableAt file h) i := by
    intro i hi
    unfold hdrAt
    rw [slice_append_left (ok.table i hi).1]
  have hmk : ∀ i, i < h.numSections → mkSec h fromMem (file ++ x) (hdrAt file (tableAt file h) i) = mkSec h fromMem file (hdrAt file (tableAt file h) i) := by
    intro i hi
    unfold mkSec
    split
    · next h0 => exact rawSec_append ((ok.table i hi).2.raw h0)
    · rfl
  have hsec : secsOf h fromMem (file ++ x) = secsOf h fromMem file := by
    unfold secsOf
    refine List.map_congr_left fun i hi => ?_
    rw [List.mem_range] at hi
    rw [htab, hh i hi, hmk i hi]
  refine ⟨hlf, hnt, hsec, hh, ?_⟩
  refine ⟨by rw [List.length_append]; have := ok.len; omega, by rw [rd_append_left (by have := ok.len; omega)]; exact ok.mz, by rw [hlf]; exact ok.align,
    by rw [hlf]; exact ok.lf, ok.sig, by rw [hlf, List.length_append]; have := ok.ntlen; omega, ok.nt, ?_, ok.first, ok.contig, ?_⟩
  · intro i hi
    obtain ⟨t1, t2⟩ := ok.table i hi
    rw [htab, hh i hi]
    refine ⟨by rw [List.length_append]; omega, t2.hdr, fun h0 => ?_, by rw [hmk i hi]; exact t2.fin⟩
    have r := t2.raw h0
    refine ⟨r.virt, ?_, fun hs => ?_, ?_⟩
    · have := r.raw
      rw [List.length_append, w32_id' (n := file.length + x.length) (by omega)]
      rw [w32_id' (n := file.length) (by omega)] at this
      omega
    · have := r.seek hs
      rw [List.length_append]; omega
    · have := r.read
      rw [List.length_append]; omega
  · have := ok.hlen
    unfold headersLen at *
    rw [List.length_append]
    split
    · next s hs =>
      rw [hs] at this
      dsimp only at this
      omega
    · have h1 := Nat.min_le_right h.sizeHeaders (w32 (file.length + x.length))
      have h2 := w32_le' (file.length + x.length)
      omega

/-- C99: bytes appended to a file (an overlay) change nothing of what is opened: the same headers, sections and stub; also the same header
    bytes if some section has data. -/
theorem C99_appended (k : Kind) (strict fromMem dbg : Bool) (pre : List (Nat × Nat)) (file x : Bytes) (r : Image) (hp : pre.length = 16)
    (hd : ∀ d ∈ pre, d.1 < 4294967296) (h : load k strict fromMem dbg pre file = .ok r) (hl : file.length + x.length < 4294967296) :
    ∃ r', load k strict fromMem dbg pre (file ++ x) = .ok r' ∧ r'.kind = r.kind ∧ r'.nt = r.nt ∧ r'.secs = r.secs ∧ r'.dos = r.dos ∧
      r'.lfanew = r.lfanew ∧ r'.stub = r.stub ∧ ((∃ s ∈ r.secs, s.data ≠ []) → r'.hdrData = r.hdrData) := by
  obtain ⟨ok, -⟩ := load_iff h
  obtain ⟨a1, a2, a3, -, a5⟩ := fileOk_append (x := x) (by rw [List.length_append]; exact hl) ok
  obtain ⟨r', h'⟩ := load_of_fileOk (file := file ++ x) hp hd (by rw [a1, a2, a3]; exact a5) dbg
  obtain ⟨-, f1, f2, f3, f4, f5, f6, f7⟩ := load_fields h
  obtain ⟨-, g1, g2, g3, g4, g5, g6, g7⟩ := load_fields h'
  have e5 : r'.lfanew = r.lfanew := by rw [g5, f5, a1]
  have e1 : r'.nt = r.nt := by rw [g1, f1, e5, f5, a2]
  have e2 : r'.secs = r.secs := by rw [g2, f2, e1, f1, f5, a3]
  have hst : r.lfanew ≤ file.length := by
    have := ok.ntlen
    rw [f5]; omega
  have h64 := ok.len
  refine ⟨r', h', by rw [g3, f3], e1, e2, ?_, e5, ?_, ?_⟩
  · rw [g6, f6, slice_append_left (by omega)]
  · rw [g7, f7, e5, slice_append_left (by omega)]
  · rintro ⟨s, hs, hne⟩
    have hh := ok.hlen
    rw [← f5, ← f1, ← f2] at hh
    rw [g4, f4, e1, e2]
    have : headersLen r.nt (file ++ x).length r.secs = headersLen r.nt file.length r.secs := by
      unfold headersLen
      cases hf : r.secs.find? (fun s => !s.empty) with
      | some s => rfl
      | none =>
        rw [List.find?_eq_none] at hf
        have := hf s hs
        simp [Sec.empty, hne] at this
    rw [this, slice_append_left (by omega)]

/-! ### Overlays of saved files -/

theorem writeSecs_end {fa : Nat} (hfa : 0 < fa) {l : List Sec} {ptr pos : Nat} {r : Bytes} {t : Sec} (hp : Placed fa ptr l) (hpos : pos ≤ ptr)
    (h : writeSecs pos l = .ok r) (ht : l.getLast? = some t) (h0 : t.rawSize ≠ 0) : pos + r.length = t.rawPtr + t.rawSize := by
  induction l generalizing ptr pos r with
  | nil => cases ht
  | cons s l ih =>
    obtain ⟨h1, h2, h3⟩ := hp
    unfold writeSecs at h
    obtain ⟨d, hd, h⟩ := bind_ok_iff.mp h
    obtain ⟨r', hr', h⟩ := bind_ok_iff.mp h
    injection h with h
    have hdl : d.length = s.rawSize := by
      unfold readN at hd
      split at hd
      · next hc =>
        injection hd with hd
        rw [← hd, slice_length]
        simp only [List.length_append, List.length_singleton] at hc ⊢
        omega
      · cases hd
    have hgeR := ceilTo_ge (x := s.rawSize) hfa
    have hrl : r.length = (s.rawPtr - pos) + (s.rawSize + r'.length) := by
      rw [← h]; simp [hdl]
    have hle : s.rawPtr ≤ ptr := by
      by_cases hz : s.rawSize = 0
      · exact h2 hz
      · exact Nat.le_of_eq (h1 hz)
    cases l with
    | nil =>
      rw [List.getLast?_singleton] at ht
      cases ht
      unfold writeSecs at hr'
      cases hr'
      have := h1 h0
      simp only [List.length_nil] at hrl
      omega
    | cons s2 l2 =>
      rw [List.getLast?_cons_cons] at ht
      have := ih h3 (by omega) hr' ht
      omega

/-- A saved file ends with the raw data of its last section, if that has any. -/
theorem saved_length {p q : Image} {strip chg sb : Bool} {out : Bytes} {t : Sec} (hv : p.Saveable strip chg sb)
    (h : p.rebuildPe strip chg sb = .ok (q, out)) (ht : q.secs.getLast? = some t) (h0 : t.rawSize ≠ 0) : out.length = t.rawPtr + t.rawSize := by
  have fa := hv.table.fa
  obtain ⟨-, e1, -, bound, data, hb, hw, ho⟩ := rebuildPe_ok hv.sized fa h
  have hf' : rawOffset p.nt.fileAlign (p.dataStart strip (p.savesBound sb)) p.secs p.secs.length < 4294967296 := hv.fits
  have hge := rawOffset_ge p.nt.fileAlign (p.dataStart strip (p.savesBound sb)) p.secs p.secs.length
  have hle := tableEnd_le_dataStart fa strip (p.savesBound sb)
  rw [e1] at hb hw ht
  have hbl := boundBytes_length hv.sized (by omega) hb
  have hhl := headBytes_length hv.sized hv.shaped (strip := strip) (chg := chg) (save := p.savesBound sb) ((p.stripDos strip).newLfanew strip) bound
  rw [hbl] at hhl
  have hpl := placed_placeSecs fa hv.shaped.raws hf' hv.noStale
  have := writeSecs_end fa.pos hpl (by rw [hhl]; exact hle) hw ht h0
  rw [ho, List.length_append, e1]
  exact this

/-- C99: a file written by the library has no overlay; with bytes appended it has one, and is otherwise opened as before. (If the last
    section has raw data.) -/
theorem C99_saved_partial (p q : Image) (strip chg sb strict dbg : Bool) (out x : Bytes) (pre : List (Nat × Nat)) (t : Sec)
    (hp : pre.length = 16) (hd : ∀ d ∈ pre, d.1 < 2 ^ 32) (hv : p.Saveable strip chg sb) (h : p.rebuildPe strip chg sb = .ok (q, out))
    (ht : p.secs.getLast? = some t) (h0 : t.rawSize ≠ 0) (hl : out.length + x.length < 4294967296) :
    ∃ r, load p.kind strict false dbg pre (out ++ x) = .ok r ∧ r.kind = p.kind ∧ r.secs = q.secs ∧
      r.nt = { q.nt with dirs := q.nt.dirs.take p.nt.numRva ++ pre.drop p.nt.numRva } ∧ (r.hasOverlay = true ↔ x ≠ []) := by
  obtain ⟨r0, hr0, k1, k2, k3, -⟩ := C19_save_load p q strip chg sb strict dbg out pre hp hd hv h
  obtain ⟨r, hr, i1, i2, i3, -⟩ := C99_appended p.kind strict false dbg pre out x r0 hp hd hr0 hl
  refine ⟨r, hr, by rw [i1, k1], by rw [i3, k3], by rw [i2, k2], ?_⟩
  obtain ⟨ok, d, hrd⟩ := load_iff hr
  obtain ⟨ok0, -⟩ := load_iff hr0
  obtain ⟨-, j1, j2, -, -, j5, -⟩ := load_fields hr0
  obtain ⟨a1, a2, a3, a4, -⟩ := fileOk_append (x := x) (by rw [List.length_append]; exact hl) ok0
  have hq : q.secs = placeSecs p.nt.fileAlign (p.dataStart strip (p.savesBound sb)) p.secs := by
    rw [(rebuildPe_ok hv.sized hv.table.fa h).2.1]; rfl
  obtain ⟨u, hu, hut⟩ : ∃ u, q.secs.getLast? = some u ∧ { u with rawPtr := 0 } = { t with rawPtr := 0 } := by
    have h6 := placeSecs_last p.nt.fileAlign (p.dataStart strip (p.savesBound sb)) p.secs (fun s => { s with rawPtr := 0 }) (fun s x => rfl)
    rw [← hq, ht] at h6
    cases hc : q.secs.getLast? with
    | none => rw [hc] at h6; cases h6
    | some u => rw [hc] at h6; exact ⟨u, rfl, by simpa using h6⟩
  have hu0 : u.rawSize = t.rawSize := by
    injection hut
  have hlen := saved_length hv h hu (by rw [hu0]; exact h0)
  have hur : u.InRange := by
    have ue : u = { t with rawPtr := u.rawPtr } := by
      have : u = { ({ u with rawPtr := 0 } : Sec) with rawPtr := u.rawPtr } := rfl
      rw [hut] at this
      exact this
    have hms := hv.secRange t (List.mem_of_getLast? ht)
    have hrp : u.rawPtr < 4294967296 := by omega
    rw [ue]
    exact ⟨hms.name, hms.vsize, hms.va, hms.rawSize, hrp, hms.relPtr, hms.linePtr, hms.nReloc, hms.nLine, hms.chars⟩
  have hS := (C18_headers p q strip chg sb out hv.sized hv.shaped hv.table.fa (by have := hv.stub; omega) h).2.2.2.2
  have hlf := (saved_fileOk hv h strict pre).1
  have hso : (ntOf p.kind pre out (rd 4 out 60)).sizeOptHdr = q.nt.sizeOptHdr := by
    rw [← j5, ← j1, k2]
  have hte := tableAt_eq (k := p.kind) (pre := pre) ok0.lf
  unfold entryAt at hte
  rw [← (ntOf_counts (k := p.kind) (pre := pre)).2, hso, hlf] at hte
  have hsec : secsOf (ntOf p.kind pre out (rd 4 out 60)) false out = q.secs := by rw [← j5, ← j1, ← j2, k3]
  rw [hrd, overlay_debug, a1, a2, a3, hsec]
  rw [hlf] at a1 a4 hsec ⊢
  generalize ntOf p.kind pre out (p.ntStart strip) = nt at *
  have hql : q.secs.length = nt.numSections := by rw [← hsec]; unfold secsOf; simp
  have hns : nt.numSections ≠ 0 := by
    intro hz
    rw [hz] at hql
    rw [List.eq_nil_of_length_eq_zero hql] at hu
    cases hu
  obtain ⟨n, hn⟩ := Nat.exists_eq_succ_of_ne_zero hns
  have hun : q.secs[n]? = some u := by
    rw [List.getLast?_eq_getElem?, hql, hn] at hu
    exact hu
  have htab : tableAt (out ++ x) nt = tableAt out nt := by unfold tableAt; rw [a1, hlf]
  have hlast : lastRawOf ((List.range nt.numSections).map (fun i => (hdrAt (out ++ x) (tableAt (out ++ x) nt) i).rawSize)) 0 = u.rawSize := by
    have hraw : (hdrAt out (tableAt out nt) n).rawSize = u.rawSize := by
      unfold hdrAt
      rw [hte n, hS n u hun]
      have := dec_encSec hur []
      rw [List.append_nil] at this
      rw [this]
    rw [hn, List.range_succ, List.map_append, List.map_singleton, htab, a4 n (by omega), hraw, lastRawOf_snoc _ _ _ (by rw [hu0]; exact h0)]
  unfold overlayTest
  rw [hlast, hu]
  dsimp only
  rw [decide_eq_true_eq, List.length_append, hlen, w32_id' (by omega)]
  cases x with
  | nil => simp
  | cons a x => simp

/-- An image with bound imports and two sections, saved: no overlay; with two bytes behind: an overlay. -/
example (q : Image) (out : Bytes) (h : (linkedImage 19).rebuildPe false true true = .ok (q, out)) (hl : out.length < 1000) :
    (∃ r, load .pe32 true false false zeroDirs out = .ok r ∧ r.hasOverlay = false) ∧
    (∃ r, load .pe32 true false false zeroDirs (out ++ [1, 2]) = .ok r ∧ r.hasOverlay = true ∧ r.secs = q.secs) := by
  have hs := fun x hx => C99_saved_partial (linkedImage 19) q false true true true false out x zeroDirs { tinySec 5 1056 4 0 with data := [1, 2, 3, 4] }
    rfl (by decide) linkedImage_saveable h rfl (by decide) hx
  constructor
  · obtain ⟨r, h1, -, -, -, h2⟩ := hs [] (by simp; omega)
    rw [List.append_nil] at h1
    exact ⟨r, h1, by simpa using h2⟩
  · obtain ⟨r, h1, -, h3, -, h2⟩ := hs [1, 2] (by simp; omega)
    exact ⟨r, h1, h2.mpr (by simp), h3⟩

/-- That file exists; its last section is recorded with four bytes at the end of the file. -/
example : ∃ q out, (linkedImage 19).rebuildPe false true true = .ok (q, out) ∧ out.length < 1000 ∧ rd 2 out (rd 4 out 60 + 6) = 1 + 1 ∧
    rd 4 out (entryAt out 1 + 16) = 4 ∧ rd 4 out (entryAt out 1 + 20) + 4 = out.length := by
  obtain ⟨⟨q, out⟩, h1, h2⟩ := exists_of_okAnd (x := (linkedImage 19).rebuildPe false true true)
    (f := fun x => decide (x.2.length < 1000 ∧ rd 2 x.2 (rd 4 x.2 60 + 6) = 1 + 1 ∧
      rd 4 x.2 (entryAt x.2 1 + 16) = 4 ∧ rd 4 x.2 (entryAt x.2 1 + 20) + 4 = x.2.length)) (by decide +kernel)
  exact ⟨q, out, h1, of_decide_eq_true h2⟩

/-- An image whose last section has no raw data (as for uninitialised data). -/
def bssImage : Image :=
  { savedImage with secs := [{ tinySec 30 1024 20 0 with data := (zeros 20).map (· + 7) }, tinySec 5 1056 0 0] }

/-- C99 fails when the last section has no raw data: the file just written ends with the raw data of a section, and yet an overlay is
    reported, since the size of the last raw data is added to the pointer of another section. -/
theorem C99_spurious : ∃ (p q r : Image) (out : Bytes), p.rebuildPe false true true = .ok (q, out) ∧
    load .pe32 false false false zeroDirs out = .ok r ∧ r.hasOverlay = true ∧
    ∃ s ∈ r.secs, s.rawSize ≠ 0 ∧ out.length = s.rawPtr + s.rawSize := by
  obtain ⟨⟨q, out⟩, h1, h2⟩ := exists_of_okAnd (x := bssImage.rebuildPe false true true)
    (f := fun x => okAnd (load .pe32 false false false zeroDirs x.2) fun r => decide (r.hasOverlay = true ∧
      ∃ s ∈ r.secs, s.rawSize ≠ 0 ∧ x.2.length = s.rawPtr + s.rawSize)) (by decide +kernel)
  obtain ⟨r, h3, h4⟩ := exists_of_okAnd h2
  exact ⟨bssImage, q, r, out, h1, h3, of_decide_eq_true h4⟩

/-- The other way round: an overlay that is not reported. The last section of this file has no raw data, but its (unused) pointer lies
    behind the end of the file. -/
def farFile : Bytes := tinyFile (tinyNt 2 1088 272) [tinySec 30 1024 20 272, tinySec 5 1056 0 100000] (zeros 8 ++ (zeros 20).map (· + 7) ++ [1, 2, 3])

theorem C99_missed : ∃ r, load .pe32 true false false zeroDirs farFile = .ok r ∧ r.hasOverlay = false ∧
    ∀ s ∈ r.secs, s.rawSize ≠ 0 → s.rawPtr + s.rawSize + 3 ≤ farFile.length := by
  obtain ⟨r, h3, h4⟩ := exists_of_okAnd (x := load .pe32 true false false zeroDirs farFile)
    (f := fun r => decide (r.hasOverlay = false ∧ ∀ s ∈ r.secs, s.rawSize ≠ 0 → s.rawPtr + s.rawSize + 3 ≤ farFile.length)) (by decide +kernel)
  exact ⟨r, h3, of_decide_eq_true h4⟩

/-! ### Saving drops the overlay -/

/-- The parts of an image that only record something about the file. -/
def Image.withNotes (p : Image) (o : Bool) (d : List (Nat × Bytes)) : Image := { p with hasOverlay := o, debugData := d }

theorem stripDos_notes (p : Image) (o : Bool) (d : List (Nat × Bytes)) (strip : Bool) :
    (p.withNotes o d).stripDos strip = (p.stripDos strip).withNotes o d := by
  unfold Image.stripDos Image.withNotes; split <;> rfl

theorem boundWanted_notes (p : Image) (o : Bool) (d : List (Nat × Bytes)) (sb : Bool) : (p.withNotes o d).boundWanted sb = p.boundWanted sb := rfl

theorem finishHeaders_notes (p : Image) (o : Bool) (d : List (Nat × Bytes)) (nt : NtHdr) (ptr : Nat) :
    (p.withNotes o d).finishHeaders nt ptr = (p.finishHeaders nt ptr).withNotes o d := by
  unfold Image.finishHeaders Image.updateImageSize Image.withNotes
  dsimp only
  cases p.secs.getLast? <;> rfl

theorem rebuildHeaders_notes (p : Image) (o : Bool) (d : List (Nat × Bytes)) (strip chg sb : Bool) {q : Image} {lf : Nat}
    (h : p.rebuildHeaders strip chg sb = .ok (q, lf)) : (p.withNotes o d).rebuildHeaders strip chg sb = .ok (q.withNotes o d, lf) := by
  unfold Image.rebuildHeaders at h ⊢
  rw [stripDos_notes]
  generalize p.stripDos strip = p at *
  dsimp only at h ⊢
  rw [boundWanted_notes]
  obtain ⟨w, h1, h⟩ := bind_ok_iff.mp h
  obtain ⟨⟨nt, ptr⟩, h2, h⟩ := bind_ok_iff.mp h
  obtain ⟨u, h3, h⟩ := bind_ok_iff.mp h
  rw [h1, ok_bind]
  refine bind_ok_iff.mpr ⟨_, h2, bind_ok_iff.mpr ⟨u, h3, ?_⟩⟩
  simp only [Except.ok.injEq, Prod.mk.injEq] at h
  obtain ⟨rfl, rfl⟩ := h
  rw [finishHeaders_notes]
  rfl

/-- Saving does not look at them. -/
theorem rebuildPe_notes {p q : Image} {out : Bytes} (o : Bool) (d : List (Nat × Bytes)) {strip chg sb : Bool}
    (h : p.rebuildPe strip chg sb = .ok (q, out)) : (p.withNotes o d).rebuildPe strip chg sb = .ok (q.withNotes o d, out) := by
  unfold Image.rebuildPe at h ⊢
  obtain ⟨u, h1, h⟩ := bind_ok_iff.mp h
  obtain ⟨rva, h2, h⟩ := bind_ok_iff.mp h
  obtain ⟨⟨q', lf⟩, h3, h⟩ := bind_ok_iff.mp h
  obtain ⟨hdr, h4, h⟩ := bind_ok_iff.mp h
  obtain ⟨bound, h5, h⟩ := bind_ok_iff.mp h
  obtain ⟨data, h6, h⟩ := bind_ok_iff.mp h
  simp only [Except.ok.injEq, Prod.mk.injEq] at h
  obtain ⟨rfl, rfl⟩ := h
  exact bind_ok_iff.mpr ⟨u, h1, bind_ok_iff.mpr ⟨rva, h2, bind_ok_iff.mpr ⟨_, rebuildHeaders_notes p o d strip chg _ h3,
    bind_ok_iff.mpr ⟨hdr, h4, bind_ok_iff.mpr ⟨bound, h5, bind_ok_iff.mpr ⟨data, h6, rfl⟩⟩⟩⟩⟩⟩

/-- C99: an overlay is not part of the image: saving an image opened from a file with bytes appended writes, byte for byte, what saving
    the image opened from the file without them writes (if some section has data). -/
theorem C99_dropped (k : Kind) (strict fromMem dbg strip chg sb : Bool) (pre : List (Nat × Nat)) (file x out : Bytes) (r r' q : Image)
    (hp : pre.length = 16) (hd : ∀ d ∈ pre, d.1 < 4294967296) (h : load k strict fromMem dbg pre file = .ok r)
    (h' : load k strict fromMem dbg pre (file ++ x) = .ok r') (hl : file.length + x.length < 4294967296) (hs : ∃ s ∈ r.secs, s.data ≠ [])
    (hw : r.rebuildPe strip chg sb = .ok (q, out)) : ∃ q', r'.rebuildPe strip chg sb = .ok (q', out) ∧ q'.secs = q.secs ∧ q'.nt = q.nt := by
  obtain ⟨r2, h2, e1, e2, e3, e4, e5, e6, e7⟩ := C99_appended k strict fromMem dbg pre file x r hp hd h hl
  rw [h'] at h2
  cases h2
  have e : r' = r.withNotes r'.hasOverlay r'.debugData := by
    have e7 := e7 hs
    cases r; cases r'
    unfold Image.withNotes
    simp_all
  rw [e]
  exact ⟨_, rebuildPe_notes _ _ hw, rfl, rfl⟩

/-- A saved file, opened with and without two bytes behind it, and saved again. -/
example : ∃ file r r' q out, load .pe32 true false false zeroDirs file = .ok r ∧ load .pe32 true false false zeroDirs (file ++ [1, 2]) = .ok r' ∧
    file.length < 1000 ∧ r.rebuildPe false true true = .ok (q, out) ∧ ∃ s ∈ r.secs, s.data ≠ [] := by
  obtain ⟨⟨q, out⟩, h1, h2⟩ := exists_of_okAnd (x := (linkedImage 19).rebuildPe false true true)
    (f := fun x => okAnd (load .pe32 true false false zeroDirs x.2) fun r => okAnd (load .pe32 true false false zeroDirs (x.2 ++ [1, 2])) fun _ =>
      okAnd (r.rebuildPe false true true) fun _ => decide (x.2.length < 1000 ∧ ∃ s ∈ r.secs, s.data ≠ [])) (by decide +kernel)
  obtain ⟨r, h3, h4⟩ := exists_of_okAnd h2
  obtain ⟨r', h5, h6⟩ := exists_of_okAnd h4
  obtain ⟨⟨q', out'⟩, h7, h8⟩ := exists_of_okAnd h6
  obtain ⟨h9, h10⟩ := of_decide_eq_true h8
  exact ⟨out, r, r', q', out', h3, h5, h9, h7, h10⟩

end PE
