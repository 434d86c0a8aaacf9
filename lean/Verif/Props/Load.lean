/-
Properties of the loader (C14, C15, C16).
-/
import Verif.Lemmas.LoadFacts
import Verif.Props.Reloc
import Verif.Spec.Rebase
namespace PE

/-! ### C14: safety -/

theorem readOr_noUB (f : Stream) (n : Nat) (e : Err) : NoUB (f.readOr n e) := by
  unfold Stream.readOr
  dsimp only
  split
  · exact NoUB.throwE _
  · exact NoUB.ok _

theorem loadNt_noUB (k : Kind) (pre : List (Nat × Nat)) (f : Stream) (lf : Nat) : NoUB (loadNt k pre f lf) := by
  unfold loadNt
  refine NoUB.bind (NoUB.throwIf _ _) (fun _ _ => NoUB.bind (NoUB.throwIf _ _) (fun _ _ =>
    NoUB.bind (readOr_noUB _ _ _) (fun r _ => NoUB.bind (NoUB.throwIf _ _) (fun _ _ => ?_))))
  dsimp only
  have hcl : ¬ (decNt k r.1 pre).clampRva.numRva > 16 := by
    generalize decNt k r.1 pre = d
    unfold NtHdr.clampRva; dsimp only; split <;> omega
  split
  · exact NoUB.bind (readOr_noUB _ _ _) (fun r _ => NoUB.ok _)
  · exact NoUB.ok _

theorem checkNt_noUB (k : Kind) (h : NtHdr) : NoUB (checkNt k h) := by
  unfold checkNt
  exact NoUB.bind (NoUB.throwIf _ _) (fun _ _ => NoUB.bind (NoUB.throwIf _ _) (fun _ _ =>
    NoUB.bind (NoUB.throwIf _ _) (fun _ _ => NoUB.bind (NoUB.throwIf _ _) (fun _ _ =>
    NoUB.bind (NoUB.throwIf _ _) (fun _ _ => NoUB.throwIf _ _)))))

theorem loadSec_noUB (h : NtHdr) (n : Nat) (m : Bool) (f : Stream) (last : Nat) : NoUB (loadSec h n m f last) := by
  unfold loadSec
  refine NoUB.bind (readOr_noUB _ _ _) (fun r _ => NoUB.bind ?_ (fun _ _ => ?_))
  · unfold checkSec
    exact NoUB.bind (NoUB.throwIf _ _) (fun _ _ => NoUB.throwIf _ _)
  · dsimp only
    split
    · refine NoUB.bind ?_ (fun q _ => NoUB.bind (NoUB.throwIf _ _) (fun _ _ => NoUB.ok _))
      unfold loadRaw
      exact NoUB.bind (NoUB.throwIf _ _) (fun _ _ => NoUB.bind (NoUB.throwIf _ _) (fun _ _ =>
        NoUB.bind (NoUB.throwIf _ _) (fun _ _ => NoUB.ok _)))
    · exact NoUB.bind (NoUB.ok _) (fun q _ => NoUB.bind (NoUB.throwIf _ _) (fun _ _ => NoUB.ok _))

theorem loadSecs_noUB (h : NtHdr) (n : Nat) (m : Bool) (c : Nat) (f : Stream) (last : Nat) :
    NoUB (loadSecs h n m c f last) := by
  induction c generalizing f last with
  | zero => exact NoUB.ok _
  | succ c ih =>
    unfold loadSecs
    exact NoUB.bind (loadSec_noUB _ _ _ _ _) (fun _ _ => NoUB.bind (ih _ _) (fun _ _ => NoUB.ok _))

theorem readDosHeader_noUB (file : Bytes) : NoUB (readDosHeader file) := by
  unfold readDosHeader
  exact NoUB.bind (NoUB.throwIf _ _) (fun _ _ => NoUB.bind (NoUB.throwIf _ _) (fun _ _ => NoUB.ok _))

theorem loadCore_noUB (k : Kind) (strict fromMem : Bool) (pre : List (Nat × Nat)) (file : Bytes) :
    NoUB (loadCore k strict fromMem pre file) := by
  unfold loadCore
  refine NoUB.bind (readDosHeader_noUB _) (fun _ _ => NoUB.bind (loadNt_noUB _ _ _ _) (fun _ _ =>
    NoUB.bind (checkNt_noUB _ _) (fun _ _ => NoUB.bind ?_ (fun _ _ => NoUB.bind (NoUB.throwIf _ _) (fun _ _ =>
    NoUB.bind (loadSecs_noUB _ _ _ _ _ _) (fun _ _ => NoUB.bind (NoUB.throwIf _ _) (fun _ _ =>
    NoUB.bind (NoUB.throwIf _ _) (fun _ _ => NoUB.bind (readOr_noUB _ _ _) (fun _ _ => NoUB.ok _)))))))))
  unfold loadStub
  split
  · exact readOr_noUB _ _ _
  · exact NoUB.ok _

/-- What the loops that read tables need to know about the image: the sections that have addresses end below 4 GiB. -/
structure ReadsBelow4G (p : Image) : Prop where
  hdr : p.hdrData.length < 4294967296
  secs : ∀ s ∈ p.secs, ∀ rva, s.containsRva p.nt.secAlign rva = true →
    s.va + s.data.length < 4294967296 ∧ s.va + s.alignedVS p.nt.secAlign < 4294967296

/-- Sections that do not have more data than their part of the address space. -/
theorem readsBelow_of {p : Image} (hh : p.hdrData.length < 4294967296)
    (h : ∀ s ∈ p.secs, s.data.length ≤ s.alignedVS p.nt.secAlign ∧ s.alignedVS p.nt.secAlign < 4294967296) : ReadsBelow4G p := by
  refine ⟨hh, fun s hs rva hc => ?_⟩
  obtain ⟨h1, h2⟩ := h s hs
  unfold Sec.containsRva w32 at hc
  simp only [Bool.and_eq_true, decide_eq_true_eq] at hc
  omega

theorem readT_below {p : Image} (hp : ReadsBelow4G p) {n rva : Nat} (hr : rva < 4294967296) {b : Bytes}
    {t : DataType} {hdrs : Bool} (h : p.readT n rva t hdrs = .ok b) : rva + n < 4294967296 := by
  unfold Image.readT at h
  split at h
  · next hc => have := hp.hdr; omega
  · obtain ⟨s, hs, h⟩ := bind_ok_iff.mp h
    dsimp only at h
    obtain ⟨hm, hcv⟩ := sectionFromRva_mem hs
    obtain ⟨h1, h2⟩ := hp.secs s hm _ hcv
    have hle := Sec.containsRva_le hcv
    rw [sub32_of_le hle.1 hr] at h
    split at h
    · simp at h
    · next hl =>
      have : s.va + (s.view t p.nt.secAlign).length < 4294967296 := by
        cases t
        · exact h1
        · simp only [Sec.view, Sec.virt, List.length_append, zeros_length]; omega
      omega

theorem debugLoop_noUB {p : Image} (hp : ReadsBelow4G p) (fin : Nat) (f : Stream) (pos : Nat)
    (hpos : pos + 28 < 4294967296) (d : Bytes) (acc : List (Nat × Bytes)) : NoUB (debugLoop p fin f pos d acc) := by
  induction hm : 4294967296 - pos using Nat.strongRecOn generalizing pos f d acc with
  | _ m ih =>
    unfold debugLoop
    dsimp only
    have hw : w32 (pos + 28) = pos + 28 := Nat.mod_eq_of_lt hpos
    split
    · split
      · exact NoUB.ok _
      · rw [hw]
        have hnu := readT_noUB p 28 (pos + 28) .virt true
        split
        · exact NoUB.ok _
        · next u hu => exact absurd hu (hnu u)
        · next b hb =>
          have hlt := readT_below hp hpos hb
          rw [dif_pos (by omega)]
          exact ih (4294967296 - (pos + 28)) (by omega) _ (pos + 28) hlt _ _ rfl
    · exact NoUB.ok _

theorem loadDebug_noUB {p : Image} (hp : ReadsBelow4G p) (ho : p.nt.DirsOk)
    (hd : ∀ d ∈ p.nt.dirs, d.1 < 4294967296) (f : Stream) : NoUB (loadDebug p f) := by
  unfold loadDebug
  refine NoUB.bind (hasDir_noUB ho.slots (by decide)) (fun b _ => ?_)
  split
  · have key : NoUB (do
        let rva ← p.nt.getDirRva dirDebug
        let n ← p.dataLenFrom rva rva .virt true
        if n < 28 then .ok []
        else
          let size ← p.nt.getDirSize dirDebug
          let d ← p.readT 28 rva .virt true
          debugLoop p (w32 (rva + size)) f rva d [] : Res (List (Nat × Bytes))) := by
      refine NoUB.bind (getDir_noUB ho _).1 (fun rva hrva => NoUB.bind (dataLenFrom_noUB _ _ _ _ _) (fun n _ => ?_))
      split
      · exact NoUB.ok _
      · refine NoUB.bind (getDir_noUB ho _).2.1 (fun size _ => NoUB.bind (readT_noUB _ _ _ _ _) (fun d hd' => ?_))
        have hlt : rva < 4294967296 := by
          unfold NtHdr.getDirRva at hrva
          split at hrva
          · simp at hrva
          · obtain ⟨x, hx, hrva⟩ := bind_ok_iff.mp hrva
            unfold NtHdr.dirAt at hx
            cases hrva
            split at hx
            · next y hy => cases hx; exact hd _ (List.mem_of_getElem? hy)
            · simp at hx
        exact debugLoop_noUB hp _ _ _ (readT_below hp hlt hd') _ _
    dsimp only
    split
    · exact NoUB.ok _
    · intro u hu
      exact key u hu
  · exact NoUB.ok _

theorem secsOf_mem {h : NtHdr} {fromMem : Bool} {file : Bytes} {s : Sec} (hs : s ∈ secsOf h fromMem file) :
    ∃ i, i < h.numSections ∧ s = mkSec h fromMem file (hdrAt file (tableAt file h) i) := by
  unfold secsOf at hs
  simp only [List.mem_map, List.mem_range] at hs
  obtain ⟨i, hi, e⟩ := hs
  exact ⟨i, hi, e.symm⟩

theorem FileOk.facts {k : Kind} {strict fromMem : Bool} {file : Bytes} {pre : List (Nat × Nat)} {secs : List Sec} {lf : Nat}
    (ok : FileOk k strict fromMem file (ntOf k pre file lf) secs) :
    Pow2 (ntOf k pre file lf).secAlign ∧ Pow2 (ntOf k pre file lf).fileAlign ∧
    (ntOf k pre file lf).fileAlign ≤ (ntOf k pre file lf).secAlign ∧
    ∀ i, i < (ntOf k pre file lf).numSections →
      SecFacts (ntOf k pre file lf) fromMem file (hdrAt file (tableAt file (ntOf k pre file lf)) i)
        (mkSec (ntOf k pre file lf) fromMem file (hdrAt file (tableAt file (ntOf k pre file lf)) i)) := by
  obtain ⟨b1, b2, b3, -⟩ := ntOf_bounds k pre file lf
  have hrel := ok.nt.rel
  have hsa := ok.nt.pow2sa b1 b3
  have hfa := ok.nt.pow2fa b1 b3 b2
  refine ⟨hsa, hfa, by omega, fun i hi => mkSec_facts hsa hfa rfl (ok.table i hi).2⟩

theorem headersLen_le (h : NtHdr) (n : Nat) (secs : List Sec) : headersLen h n secs ≤ h.sizeHeaders := by
  unfold headersLen
  split <;> exact Nat.min_le_left _ _

theorem imageOf_nt (k : Kind) (fromMem : Bool) (pre : List (Nat × Nat)) (file : Bytes) :
    (imageOf k fromMem pre file).nt = ntOf k pre file (rd 4 file 60) := by
  unfold imageOf; dsimp only
theorem imageOf_secs (k : Kind) (fromMem : Bool) (pre : List (Nat × Nat)) (file : Bytes) :
    (imageOf k fromMem pre file).secs = secsOf (ntOf k pre file (rd 4 file 60)) fromMem file := by
  unfold imageOf; dsimp only
theorem imageOf_hdr (k : Kind) (fromMem : Bool) (pre : List (Nat × Nat)) (file : Bytes) :
    (imageOf k fromMem pre file).hdrData = slice file 0 (headersLen (ntOf k pre file (rd 4 file 60)) file.length
      (secsOf (ntOf k pre file (rd 4 file 60)) fromMem file)) := by
  unfold imageOf; dsimp only

theorem imageOf_reads {k : Kind} {strict fromMem : Bool} {file : Bytes} {pre : List (Nat × Nat)}
    (ok : FileOk k strict fromMem file (ntOf k pre file (rd 4 file 60))
        (secsOf (ntOf k pre file (rd 4 file 60)) fromMem file)) : ReadsBelow4G (imageOf k fromMem pre file) := by
  have b4 := (ntOf_bounds k pre file (rd 4 file 60)).2.2.2.1
  have hf := ok.facts.2.2.2
  apply readsBelow_of
  · rw [imageOf_hdr, slice_length]
    have := headersLen_le (ntOf k pre file (rd 4 file 60)) file.length (secsOf (ntOf k pre file (rd 4 file 60)) fromMem file)
    generalize headersLen _ _ _ = x at this ⊢
    generalize ntOf k pre file (rd 4 file 60) = h at *
    omega
  · rw [imageOf_secs, imageOf_nt]
    generalize ntOf k pre file (rd 4 file 60) = h at *
    intro s hs
    obtain ⟨i, hi, rfl⟩ := secsOf_mem hs
    have := hf i hi
    have h1 := this.span
    have h2 := this.spanLe
    have h3 := this.rawLe
    have h4 := this.len
    rw [h1]
    omega

theorem imageOf_dirs {k : Kind} {fromMem : Bool} {file : Bytes} {pre : List (Nat × Nat)} (hp : pre.length = 16) :
    (imageOf k fromMem pre file).nt.DirsOk :=
  ⟨ntOf_dirs_length k hp file _, (ntOf_bounds k pre file (rd 4 file 60)).2.2.2.2.1⟩

theorem imageOf_dirs_lt {k : Kind} {fromMem : Bool} {file : Bytes} {pre : List (Nat × Nat)}
    (hp : ∀ d ∈ pre, d.1 < 4294967296) : ∀ d ∈ (imageOf k fromMem pre file).nt.dirs, d.1 < 4294967296 := by
  intro d hd
  change d ∈ decDirs _ _ ++ pre.drop _ at hd
  rcases List.mem_append.mp hd with h | h
  · unfold decDirs at h
    simp only [List.mem_map] at h
    obtain ⟨i, _, rfl⟩ := h
    exact rd_lt 4 _ _
  · exact hp d (List.mem_of_mem_drop h)

/-- C14: loading any byte string (from a file or from a memory dump, with or without debug data, whatever the
    stream does on seeks behind its end) either succeeds or throws: no access outside a buffer, no endless
    loop. -/
theorem C14_load_safe (k : Kind) (strict fromMem dbg : Bool) (pre : List (Nat × Nat)) (hp : pre.length = 16)
    (hp' : ∀ d ∈ pre, d.1 < 2 ^ 32) (file : Bytes) (u : UB) : load k strict fromMem dbg pre file ≠ .error (.ub u) := by
  have : NoUB (load k strict fromMem dbg pre file) := by
    unfold load
    refine NoUB.bind (loadCore_noUB _ _ _ _ _) (fun r hr => ?_)
    obtain ⟨p, f⟩ := r
    obtain ⟨ok, rfl, -⟩ := loadCore_iff.mp hr
    dsimp only
    split
    · exact NoUB.bind (loadDebug_noUB (imageOf_reads ok) (imageOf_dirs hp) (imageOf_dirs_lt hp') _) (fun _ _ => NoUB.ok _)
    · exact NoUB.ok _
  exact this u

theorem peType_noUB (strict : Bool) (file : Bytes) : NoUB (peType strict file) := by
  unfold peType
  exact NoUB.bind (readDosHeader_noUB _) (fun _ _ => NoUB.bind (NoUB.throwIf _ _) (fun _ _ =>
    NoUB.bind (readOr_noUB _ _ _) (fun _ _ => NoUB.bind (NoUB.throwIf _ _) (fun _ _ =>
    NoUB.bind (NoUB.throwIf _ _) (fun _ _ => NoUB.ok _)))))

/-- C14: the same for the factory, which first finds out the kind of the image. -/
theorem C14_factory_safe (strict fromMem dbg : Bool) (file : Bytes) (u : UB) :
    createPe strict fromMem dbg file ≠ .error (.ub u) := by
  have : NoUB (createPe strict fromMem dbg file) := by
    unfold createPe
    exact NoUB.bind (peType_noUB _ _) (fun k _ => fun u => C14_load_safe k strict fromMem dbg _ (by simp)
      (by intro d hd; rw [List.eq_of_mem_replicate hd]; decide) file u)
  exact this u

/-! ### C15: invariants of loaded images -/

theorem load_iff {k : Kind} {strict fromMem dbg : Bool} {pre : List (Nat × Nat)} {file : Bytes} {p : Image}
    (h : load k strict fromMem dbg pre file = .ok p) :
    FileOk k strict fromMem file (ntOf k pre file (rd 4 file 60))
        (secsOf (ntOf k pre file (rd 4 file 60)) fromMem file) ∧
      ∃ d, p = { imageOf k fromMem pre file with debugData := d } := by
  unfold load at h
  obtain ⟨⟨q, f⟩, hc, h⟩ := bind_ok_iff.mp h
  obtain ⟨ok, rfl, -⟩ := loadCore_iff.mp hc
  refine ⟨ok, ?_⟩
  dsimp only at h
  split at h
  · obtain ⟨d, _, h⟩ := bind_ok_iff.mp h
    injection h with h
    exact ⟨d, h.symm⟩
  · injection h with h
    clear hc ok
    generalize imageOf k fromMem pre file = q at *
    exact ⟨q.debugData, h.symm⟩

theorem withDebug_fields (p : Image) (d : List (Nat × Bytes)) :
    ({ p with debugData := d } : Image).nt = p.nt ∧ ({ p with debugData := d } : Image).secs = p.secs ∧
    ({ p with debugData := d } : Image).kind = p.kind ∧ ({ p with debugData := d } : Image).hdrData = p.hdrData ∧
    ({ p with debugData := d } : Image).lfanew = p.lfanew ∧ ({ p with debugData := d } : Image).dos = p.dos ∧
    ({ p with debugData := d } : Image).stub = p.stub := ⟨rfl, rfl, rfl, rfl, rfl, rfl, rfl⟩

/-- The fields of a loaded image, without touching the definition of `imageOf` again. -/
theorem load_fields {k : Kind} {strict fromMem dbg : Bool} {pre : List (Nat × Nat)} {file : Bytes} {p : Image}
    (h : load k strict fromMem dbg pre file = .ok p) :
    FileOk k strict fromMem file p.nt p.secs ∧ p.nt = ntOf k pre file p.lfanew ∧ p.secs = secsOf p.nt fromMem file ∧
    p.kind = k ∧ p.hdrData = slice file 0 (headersLen p.nt file.length p.secs) ∧ p.lfanew = rd 4 file 60 ∧
    p.dos = slice file 0 60 ∧ p.stub = slice file 64 (p.lfanew - 64) := by
  obtain ⟨ok, d, rfl⟩ := load_iff h
  obtain ⟨e1, e2, e3, e4, e5, e6, e7⟩ := withDebug_fields (imageOf k fromMem pre file) d
  rw [e1, e2, e3, e4, e5, e6, e7]
  clear e1 e2 e3 e4 e5 e6 e7 h
  unfold imageOf
  dsimp only
  generalize ntOf k pre file (rd 4 file 60) = h at *
  generalize secsOf h fromMem file = l at *
  exact ⟨ok, rfl, rfl, rfl, rfl, rfl, rfl, rfl⟩

/-- The documented header invariants of a PE image (all but the one on `SizeOfImage`). -/
structure HeadersValid (p : Image) : Prop where
  signature : p.nt.signature = 0x4550
  magic : p.nt.magic = match p.kind with | .pe32 => 0x10b | .pe64 => 0x20b
  lfanew : p.lfanew < 2 ^ 31 ∧ 4 ∣ p.lfanew
  secAlign : Pow2 p.nt.secAlign
  fileAlign : Pow2 p.nt.fileAlign
  le : p.nt.fileAlign ≤ p.nt.secAlign
  small : p.nt.fileAlign < 512 → p.nt.fileAlign = p.nt.secAlign
  count : p.secs.length = p.nt.numSections ∧ p.secs.length ≤ 96
  dirs : p.nt.numRva ≤ 16 ∧ p.nt.dirs.length = 16
  image : 0 < p.nt.sizeImage
  headers : p.hdrData.length ≤ p.nt.sizeHeaders ∧ ∀ s, p.secs.head? = some s → p.nt.sizeHeaders ≤ s.va

/-- C15 (partial: `SizeOfImage` need not be aligned, see `C15_sizeImage_unaligned`): the header invariants hold
    for every image that was loaded. -/
theorem C15_headers_partial (k : Kind) (strict fromMem dbg : Bool) (pre : List (Nat × Nat)) (hp : pre.length = 16)
    (file : Bytes) (p : Image) (h : load k strict fromMem dbg pre file = .ok p) :
    slice file 0 2 = [0x4d, 0x5a] ∧ p.kind = k ∧ HeadersValid p := by
  obtain ⟨ok, hnt, hsecs, hk, hhd, hlf, hdos, hstub⟩ := load_fields h
  have hb := ntOf_bounds k pre file p.lfanew
  have hdl := ntOf_dirs_length k hp file p.lfanew
  rw [← hnt] at hb hdl
  obtain ⟨b1, b2, b3, b4, b5, b6, b7⟩ := hb
  have hlen : p.secs.length = p.nt.numSections := by rw [hsecs]; unfold secsOf; simp
  have hrel := ok.nt.rel
  have hsa := ok.nt.pow2sa b1 b3
  have hfa := ok.nt.pow2fa b1 b3 b2
  refine ⟨?_, hk, ⟨ok.sig, ?_, ?_, hsa, hfa, by omega, by omega, ⟨hlen, ?_⟩, ⟨b5, hdl⟩, ?_, ?_, ok.first⟩⟩
  · have e := ok.mz
    have hl : (slice file 0 2).length = 2 := slice_length_of_le (by have := ok.len; omega)
    have := leBytes_fromLE' hl
    unfold rd at e
    rw [e] at this
    rw [← this]
    decide
  · have := ok.nt.magic; rw [hk]; cases k <;> exact this
  · rw [hlf]; exact ⟨ok.lf, Nat.dvd_of_mod_eq_zero ok.align⟩
  · rw [hlen]; exact ok.nt.count
  · refine Nat.pos_of_ne_zero (fun h0 => ok.nt.img ?_)
    rw [h0]; exact alignUp_zero hsa
  · rw [hhd, slice_length]
    have := headersLen_le p.nt file.length p.secs
    omega

/-- C15 (partial: sums are 32 bits wide, see `C15_wrap_accepted`): every section of a loaded image has sizes of at
    most 2 GiB, all its raw data is there and fits its virtual range, it ends inside the image and starts where
    its predecessor ends. -/
theorem C15_sections_partial (k : Kind) (strict fromMem dbg : Bool) (pre : List (Nat × Nat))
    (file : Bytes) (p : Image) (h : load k strict fromMem dbg pre file = .ok p) :
    (∀ s ∈ p.secs, s.span p.nt.secAlign ≤ 2 ^ 31 ∧ s.data.length = s.rawSize ∧ s.rawSize ≤ s.span p.nt.secAlign ∧
      s.va < 2 ^ 32 ∧ (s.va + s.span p.nt.secAlign) % 2 ^ 32 ≤ ceilTo p.nt.sizeImage p.nt.secAlign) ∧
    (∀ i s t, p.secs[i]? = some s → p.secs[i + 1]? = some t → t.va = (s.va + s.span p.nt.secAlign) % 2 ^ 32) := by
  obtain ⟨ok, hnt, hsecs, hk, hhd, hlf, hdos, hstub⟩ := load_fields h
  have hb := ntOf_bounds k pre file p.lfanew
  have hok2 := ok
  rw [hnt] at hok2
  have hf := hok2.facts
  rw [← hnt] at hb hf
  obtain ⟨b1, b2, b3, -⟩ := hb
  have key : ∀ s ∈ p.secs, s.alignedVS p.nt.secAlign = s.span p.nt.secAlign ∧ s.span p.nt.secAlign ≤ 2 ^ 31 ∧
      s.data.length = s.rawSize ∧ s.rawSize ≤ s.span p.nt.secAlign ∧
      s.va < 2 ^ 32 ∧ (s.va + s.span p.nt.secAlign) % 2 ^ 32 ≤ ceilTo p.nt.sizeImage p.nt.secAlign := by
    intro s hs
    rw [hsecs] at hs
    obtain ⟨i, hi, rfl⟩ := secsOf_mem hs
    have hsf := hf.2.2.2 i hi
    refine ⟨hsf.span, hsf.spanLe, hsf.len, hsf.rawLe, ?_, ?_⟩
    · rw [hsf.va]; exact rd_lt 4 _ _
    · refine Nat.le_trans hsf.inImage ?_
      rw [alignUp_ceil hf.1 b3]
      exact Nat.mod_le _ _
  refine ⟨fun s hs => (key s hs).2, ?_⟩
  have hc := ok.contig
  have hkey : ∀ s ∈ p.secs, s.alignedVS p.nt.secAlign = s.span p.nt.secAlign := fun s hs => (key s hs).1
  revert hc hkey
  generalize p.secs = l
  clear key hf hok2 ok hnt hsecs hk hhd hlf hdos hstub h
  induction l with
  | nil => intro _ _ i s t hs; simp at hs
  | cons a l ih =>
    intro hc hkey i s t hs ht
    cases l with
    | nil => simp at ht
    | cons b l =>
      simp only [contigTest, Bool.and_eq_true, beq_iff_eq] at hc
      cases i with
      | zero =>
        simp only [List.getElem?_cons_zero, Option.some.injEq, List.getElem?_cons_succ, Nat.zero_add] at hs ht
        subst hs; subst ht
        rw [hc.1, hkey _ (by simp)]
        rfl
      | succ i =>
        exact ih hc.2 (fun s hs => hkey s (by simp [hs])) i s t (by simpa using hs) (by simpa using ht)

theorem contig_of_steps {a : Nat} {l : List Sec}
    (h : ∀ i s t, l[i]? = some s → l[i + 1]? = some t → t.va = s.va + s.span a) : Contig a l := by
  induction l with
  | nil => trivial
  | cons x l ih =>
    cases l with
    | nil => trivial
    | cons y l =>
      exact ⟨h 0 x y (by simp) (by simp), ih (fun i s t hs ht => h (i + 1) s t (by simpa using hs) (by simpa using ht))⟩

theorem contig_ge {a v : Nat} {l : List Sec} (hc : Contig a l) (h0 : ∀ s, l.head? = some s → v ≤ s.va) :
    ∀ s ∈ l, v ≤ s.va := by
  induction l with
  | nil => intro s hs; simp at hs
  | cons x l ih =>
    intro s hs
    have hx := h0 x (by simp)
    rcases List.mem_cons.mp hs with rfl | hs
    · exact hx
    · cases l with
      | nil => simp at hs
      | cons y l =>
        refine ih hc.2 ?_ s hs
        intro t ht
        simp only [List.head?_cons, Option.some.injEq] at ht
        subst ht
        have := hc.1
        omega

/-- C15 (partial): if no section reaches the end of the 32-bit address space, no virtual size is zero and the first
    section is aligned, then the section table of a loaded image is valid (contiguous, disjoint, inside the image)
    and all sections lie behind the headers. -/
theorem C15_valid_table_partial (k : Kind) (strict fromMem dbg : Bool) (pre : List (Nat × Nat)) (hp : pre.length = 16)
    (file : Bytes) (p : Image) (h : load k strict fromMem dbg pre file = .ok p)
    (hfit : ∀ s ∈ p.secs, s.va + s.span p.nt.secAlign < 2 ^ 32) (hv : ∀ s ∈ p.secs, s.vsize ≠ 0)
    (hal : ∀ s, p.secs.head? = some s → p.nt.secAlign ∣ s.va) :
    ValidTable p ∧ HeadersBelow p ∧ (∀ s ∈ p.secs, s.va + s.span p.nt.secAlign ≤ ceilTo p.nt.sizeImage p.nt.secAlign) := by
  obtain ⟨-, -, hh⟩ := C15_headers_partial k strict fromMem dbg pre hp file p h
  obtain ⟨h1, h2⟩ := C15_sections_partial k strict fromMem dbg pre file p h
  have hc : Contig p.nt.secAlign p.secs := contig_of_steps (by
    intro i s t hs ht
    rw [h2 i s t hs ht, Nat.mod_eq_of_lt (hfit s (List.mem_of_getElem? hs))])
  obtain ⟨ok, hnt, hsecs, hk, hhd, hlf, hdos, hstub⟩ := load_fields h
  have hok2 := ok
  rw [hnt] at hok2
  have hf := hok2.facts
  rw [← hnt] at hf
  refine ⟨⟨hh.secAlign, hh.fileAlign, hh.le, ?_, ?_, ?_, hc, hh.count.1.symm, hh.count.2, ?_⟩, ?_, ?_⟩
  · intro s hs
    have hva := hfit s hs
    rw [hsecs] at hs
    obtain ⟨i, hi, rfl⟩ := secsOf_mem hs
    have hsf := hf.2.2.2 i hi
    have h3 := hsf.rawLe
    have h4 := hsf.spanLe
    refine ⟨?_, by omega, ?_, hva⟩
    · rw [hsf.vsize]; exact rd_lt 4 _ _
    · rw [hsf.rawPtr]; exact rd_lt 4 _ _
  · have : ∀ s ∈ p.secs, p.nt.secAlign ∣ s.va := by
      revert hc hal
      generalize p.secs = l
      generalize p.nt.secAlign = a
      induction l with
      | nil => intro _ _ s hs; simp at hs
      | cons x l ih =>
        intro hal hc s hs
        have hx := hal x (by simp)
        rcases List.mem_cons.mp hs with rfl | hs
        · exact hx
        · cases l with
          | nil => simp at hs
          | cons y l =>
            refine ih ?_ hc.2 s hs
            intro t ht
            simp only [List.head?_cons, Option.some.injEq] at ht
            subst ht
            rw [hc.1]
            exact Nat.dvd_add hx (ceilTo_dvd _ _)
    exact this
  · intro s hs ⟨h0, _⟩; exact hv s hs h0
  · intro s hs
    obtain ⟨a1, a2, a3, a4, a5⟩ := h1 s hs
    refine ⟨by omega, fun h0 => absurd h0 (hv s hs)⟩
  · exact contig_ge hc (fun s hs => Nat.le_trans hh.headers.1 (hh.headers.2 s hs))
  · intro s hs
    have := (h1 s hs).2.2.2.2
    rwa [Nat.mod_eq_of_lt (hfit s hs)] at this

/-! ### C16: contents -/

theorem rd_slice {b : Bytes} {o n w off : Nat} (h : off + w ≤ n) : rd w (slice b o n) off = rd w b (o + off) := by
  unfold rd; rw [slice_slice h]

/-- C16: in a loaded image, section `i` is described by entry `i` of the section table (40 bytes each, behind the
    optional header), and its raw data are the bytes of the file at its raw pointer rounded down to the file
    alignment (for a memory dump: at its rounded down virtual address). Only `SizeOfRawData` may differ from the
    entry: it is cut to the virtual size if the raw data would not fit. -/
theorem C16_sections (k : Kind) (strict fromMem dbg : Bool) (pre : List (Nat × Nat)) (file : Bytes) (p : Image)
    (h : load k strict fromMem dbg pre file = .ok p) (i : Nat) (s : Sec) (hs : p.secs[i]? = some s) :
    let o := rd 4 file 60 + 24 + p.nt.sizeOptHdr + 40 * i
    let start := if fromMem then s.va / p.nt.secAlign * p.nt.secAlign else s.rawPtr / p.nt.fileAlign * p.nt.fileAlign
    o + 40 ≤ file.length ∧
    s.name = slice file o 8 ∧ s.vsize = rd 4 file (o + 8) ∧ s.va = rd 4 file (o + 12) ∧
    s.rawSize = (if ceilTo (rd 4 file (o + 8)) p.nt.secAlign < ceilTo (rd 4 file (o + 16)) p.nt.fileAlign
      then rd 4 file (o + 8) else rd 4 file (o + 16)) ∧
    s.rawPtr = rd 4 file (o + 20) ∧ s.relPtr = rd 4 file (o + 24) ∧ s.linePtr = rd 4 file (o + 28) ∧
    s.nReloc = rd 2 file (o + 32) ∧ s.nLine = rd 2 file (o + 34) ∧ s.chars = rd 4 file (o + 36) ∧
    s.data = slice file start s.rawSize ∧ s.data.length = s.rawSize ∧
    (s.rawSize ≠ 0 → start + s.rawSize ≤ file.length) := by
  obtain ⟨ok, hnt, hsecs, hk, hhd, hlf, hdos, hstub⟩ := load_fields h
  have hok2 := ok
  rw [hnt] at hok2
  have hf := hok2.facts.2.2.2
  have hb := (ntOf_bounds k pre file p.lfanew).2.2.2.2.2.2
  rw [← hnt] at hf hb
  have hlf2 := ok.lf
  have ht : tableAt file p.nt = rd 4 file 60 + 24 + p.nt.sizeOptHdr := by
    unfold tableAt w32; omega
  rw [hsecs] at hs
  unfold secsOf at hs
  simp only [List.getElem?_map, Option.map_eq_some_iff] at hs
  obtain ⟨j, hj, hs⟩ := hs
  obtain ⟨hj1, hj2⟩ := List.getElem?_eq_some_iff.mp hj
  simp only [List.getElem_range] at hj2
  subst hj2
  simp only [List.length_range] at hj1
  have hi := hj1
  have hsf := hf i hi
  rw [hs] at hsf
  have hin := (ok.table i hi).1
  rw [ht] at hsf hin
  unfold hdrAt decSec at hsf
  obtain ⟨f1, f2, f3, f4, f5, f6, f7, f8, f9, f10, f11, f12, f13, -⟩ := hsf
  dsimp only at *
  simp only [slice_slice (b := file) (show 0 + 8 ≤ 40 by decide), rd_slice (show 8 + 4 ≤ 40 by decide),
    rd_slice (show 12 + 4 ≤ 40 by decide), rd_slice (show 16 + 4 ≤ 40 by decide), rd_slice (show 20 + 4 ≤ 40 by decide),
    rd_slice (show 24 + 4 ≤ 40 by decide), rd_slice (show 28 + 4 ≤ 40 by decide), rd_slice (show 32 + 2 ≤ 40 by decide),
    rd_slice (show 34 + 2 ≤ 40 by decide), rd_slice (show 36 + 4 ≤ 40 by decide), Nat.add_zero] at *
  rw [f3, f4]
  exact ⟨hin, f1, f2, rfl, f10, rfl, f5, f6, f7, f8, f9, f11, f13, f12⟩

/-- C16: the headers of a loaded image are the bytes of the file: DOS header, stub, NT headers (with at most 16
    directories; a larger `NumberOfRvaAndSizes` is replaced by 16) and the retained header bytes. -/
theorem C16_headers (k : Kind) (strict fromMem dbg : Bool) (pre : List (Nat × Nat)) (file : Bytes) (p : Image)
    (h : load k strict fromMem dbg pre file = .ok p) :
    p.lfanew = rd 4 file 60 ∧ p.dos = slice file 0 60 ∧ p.stub = slice file 64 (p.lfanew - 64) ∧
    (∃ n, n ≤ p.nt.sizeHeaders ∧ n ≤ file.length ∧ p.hdrData = slice file 0 n) ∧
    (∃ v, (p.nt.numRva = if v > 16 then 16 else v) ∧
      slice file p.lfanew k.sizeofNtBase = encFields (ntFields k { p.nt with numRva := v })) ∧
    encDirs (p.nt.dirs.take p.nt.numRva) = slice file (p.lfanew + k.sizeofNtBase) (8 * p.nt.numRva) := by
  obtain ⟨ok, hnt, hsecs, hk, hhd, hlf, hdos, hstub⟩ := load_fields h
  have hntl := ok.ntlen
  have hhl := ok.hlen
  have hle := headersLen_le p.nt file.length p.secs
  rw [← hlf] at hntl
  have hl : (slice file p.lfanew k.sizeofNtBase).length = k.sizeofNtBase := slice_length_of_le (by omega)
  have he := enc_decNt (k := k) (ds := pre) hl
  unfold ntOf at hnt
  generalize hd : decNt k (slice file p.lfanew k.sizeofNtBase) pre = d at hnt he
  refine ⟨hlf, hdos, hstub, ⟨_, hle, hhl, hhd⟩, ⟨d.numRva, ?_, ?_⟩, ?_⟩
  · rw [hnt]; rfl
  · rw [hnt, ← he]; cases k <;> rfl
  · have e1 : p.nt.numRva = d.clampRva.numRva := by rw [hnt]; rfl
    have e2 : p.nt.dirs = decDirs (slice file (p.lfanew + k.sizeofNtBase) (8 * p.nt.numRva)) p.nt.numRva ++
        d.clampRva.dirs.drop p.nt.numRva := by rw [e1, hnt]; rfl
    rw [e2, List.take_left' (decDirs_length _ _)]
    exact enc_decDirs (slice_length_of_le (by omega))

/-! ### Examples and counterexamples -/

/-- A PE32 header with both alignments 16 and no directories. -/
def tinyNt (nsec sizeImage sizeHeaders : Nat) : NtHdr :=
  { createNt .pe32 16 2 with
    signature := 0x4550, numSections := nsec, sizeOptHdr := 96, magic := 0x10b,
    fileAlign := 16, secAlign := 16, sizeImage := sizeImage, sizeHeaders := sizeHeaders, numRva := 0 }

/-- A file made of a DOS header, NT headers, a section table and the bytes that follow. -/
def tinyFile (h : NtHdr) (secs : List Sec) (tail : Bytes) : Bytes :=
  [0x4d, 0x5a] ++ zeros 58 ++ leBytes 4 64 ++ encFields (ntFields .pe32 h) ++ secs.flatMap encSec ++ tail

def tinySec (vsize va rawSize rawPtr : Nat) : Sec :=
  { name := [46, 116, 0, 0, 0, 0, 0, 0], vsize := vsize, va := va, rawSize := rawSize, rawPtr := rawPtr }

/-- Two sections, the first with 20 bytes of data at offset 272 = 17 * 16. -/
def tinyGood : Bytes := tinyFile (tinyNt 2 1088 272) [tinySec 30 1024 20 272, tinySec 5 1056 0 0] (zeros 8 ++ (zeros 20).map (· + 7))

def zeroDirs : List (Nat × Nat) := List.replicate 16 (0, 0)

example : ∃ p, load .pe32 true false true zeroDirs tinyGood = .ok p ∧
    p.secs.map (fun s => (s.va, s.data)) = [(1024, (zeros 20).map (· + 7)), (1056, [])] ∧
    (∀ s ∈ p.secs, s.va + s.span p.nt.secAlign < 2 ^ 32) ∧ (∀ s ∈ p.secs, s.vsize ≠ 0) ∧
    (∀ s, p.secs.head? = some s → p.nt.secAlign ∣ s.va) := by
  obtain ⟨p, h1, h2⟩ := exists_of_okAnd (x := load .pe32 true false true zeroDirs tinyGood)
    (f := fun p => decide (p.secs.map (fun s => (s.va, s.data)) = [(1024, (zeros 20).map (· + 7)), (1056, [])]) &&
      decide (∀ s ∈ p.secs, s.va + s.span p.nt.secAlign < 2 ^ 32) && decide (∀ s ∈ p.secs, s.vsize ≠ 0) &&
      p.secs.head?.all (fun s => decide (p.nt.secAlign ∣ s.va))) (by decide +kernel)
  simp only [Bool.and_eq_true, decide_eq_true_eq] at h2
  refine ⟨p, h1, h2.1.1.1, h2.1.1.2, h2.1.2, ?_⟩
  intro s hs
  have := h2.2
  rw [hs] at this
  simpa using this

/-- C15 fails for `SizeOfImage`: an image whose `SizeOfImage` is not a multiple of the section alignment is
    accepted and keeps that value. -/
theorem C15_sizeImage_unaligned : ∃ file p, load .pe32 true false true zeroDirs file = .ok p ∧
    ¬ p.nt.secAlign ∣ p.nt.sizeImage := by
  obtain ⟨p, h1, h2⟩ := exists_of_okAnd
    (x := load .pe32 true false true zeroDirs (tinyFile (tinyNt 1 1050 0) [tinySec 20 1024 0 0] []))
    (f := fun p => decide (¬ p.nt.secAlign ∣ p.nt.sizeImage)) (by decide +kernel)
  exact ⟨_, p, h1, by simpa using h2⟩

/-- C15 fails for addresses: a section whose range reaches the end of the 32-bit address space is accepted
    although it ends far behind the end of the image, since the sum is computed with 32 bits. -/
theorem C15_wrap_accepted : ∃ file p s, load .pe32 true false true zeroDirs file = .ok p ∧ s ∈ p.secs ∧
    s.va + s.span p.nt.secAlign > ceilTo p.nt.sizeImage p.nt.secAlign := by
  obtain ⟨p, h1, h2⟩ := exists_of_okAnd
    (x := load .pe32 true false true zeroDirs (tinyFile (tinyNt 1 16 0) [tinySec 15 4294967280 0 0] []))
    (f := fun p => p.secs.any (fun s => decide (s.va + s.span p.nt.secAlign > ceilTo p.nt.sizeImage p.nt.secAlign)))
    (by decide +kernel)
  simp only [List.any_eq_true, decide_eq_true_eq] at h2
  obtain ⟨s, hs, h2⟩ := h2
  exact ⟨_, p, s, h1, hs, h2⟩

/-- C15: the first section need not be aligned to the section alignment. -/
theorem C15_first_unaligned : ∃ file p s, load .pe32 true false true zeroDirs file = .ok p ∧ s ∈ p.secs ∧
    ¬ p.nt.secAlign ∣ s.va := by
  obtain ⟨p, h1, h2⟩ := exists_of_okAnd
    (x := load .pe32 true false true zeroDirs (tinyFile (tinyNt 1 1056 0) [tinySec 16 1025 0 0] []))
    (f := fun p => p.secs.any (fun s => decide (¬ p.nt.secAlign ∣ s.va)))
    (by decide +kernel)
  simp only [List.any_eq_true, decide_eq_true_eq] at h2
  obtain ⟨s, hs, h2⟩ := h2
  exact ⟨_, p, s, h1, hs, h2⟩

/-- C16: a section whose virtual size is zero loses all its raw data: the check made for too large raw data
    replaces `SizeOfRawData` by zero (the OS loader would use the raw size), so that a section with both sizes
    zero, which the loader rejects in a file, comes out of it. -/
theorem C16_zero_vsize_loses_data (k : Kind) (strict dbg : Bool) (pre : List (Nat × Nat)) (file : Bytes)
    (p : Image) (h : load k strict false dbg pre file = .ok p) (s : Sec) (hs : s ∈ p.secs) (h0 : s.vsize = 0) :
    s.rawSize = 0 ∧ s.data = [] := by
  obtain ⟨i, hi, hs'⟩ := List.getElem_of_mem hs
  obtain ⟨-, -, h2, -, h4, -, -, -, -, -, -, h11, h12, -⟩ := C16_sections k strict false dbg pre file p h i s
    (by rw [List.getElem?_eq_getElem hi, hs'])
  obtain ⟨ok, hnt, -⟩ := load_fields h
  rw [hnt] at ok
  have hfa := ok.facts.2.1
  rw [← hnt] at hfa
  rw [← h2, h0, ceilTo_zero] at h4
  have hr : s.rawSize = 0 := by
    rw [h4]
    split
    · rfl
    · next hn =>
      rcases Nat.eq_zero_or_pos (rd 4 file (rd 4 file 60 + 24 + p.nt.sizeOptHdr + 40 * i + 16)) with h | h
      · exact h
      · exact absurd (ceilTo_pos hfa.pos h) hn
  rw [hr] at h12
  exact ⟨hr, List.length_eq_zero_iff.mp h12⟩

example : ∃ p, load .pe32 true false true zeroDirs
      (tinyFile (tinyNt 1 1088 0) [tinySec 0 1024 16 224] ((zeros 16).map (· + 7))) = .ok p ∧
    p.secs.map (fun s => (s.vsize, s.rawSize, s.data)) = [(0, 0, [])] := by
  obtain ⟨p, h1, h2⟩ := exists_of_okAnd (x := load .pe32 true false true zeroDirs
      (tinyFile (tinyNt 1 1088 0) [tinySec 0 1024 16 224] ((zeros 16).map (· + 7))))
    (f := fun p => decide (p.secs.map (fun s => (s.vsize, s.rawSize, s.data)) = [(0, 0, [])])) (by decide +kernel)
  exact ⟨p, h1, by simpa using h2⟩

end PE
