/-
C68: directories in sections survive saving and loading.
-/
import Verif.Lemmas.Hdr
import Verif.Props.SaveLoad
namespace PE

/-- The directory `id` is announced at the same place. -/
structure SameDir (p r : Image) (id : Nat) : Prop where
  has : r.hasDir id = p.hasDir id
  rva : r.nt.getDirRva id = p.nt.getDirRva id
  size : r.nt.getDirSize id = p.nt.getDirSize id

theorem sameDir_of {p r : Image} {id : Nat} (hn : r.nt.numRva = p.nt.numRva) (h1 : 1 ≤ p.nt.numRva) (h2 : p.nt.numRva ≤ 16)
    (hd : id < p.nt.numRva → r.nt.dirs[id]? = p.nt.dirs[id]?) : SameDir p r id := by
  by_cases hi : id < p.nt.numRva
  · have e := hd hi
    have e3 : r.nt.dirAt id = p.nt.dirAt id := by
      unfold NtHdr.dirAt; rw [e]
    constructor
    · unfold Image.hasDir NtHdr.directoryExists
      rw [hn, e3]
    · unfold NtHdr.getDirRva
      rw [hn, e3]
    · unfold NtHdr.getDirSize
      rw [hn, e3]
  · have hlt : ¬ sub32 p.nt.numRva 1 ≥ id := by unfold sub32; omega
    constructor
    · unfold Image.hasDir NtHdr.directoryExists
      rw [hn, if_neg hlt, if_neg hlt]
    · unfold NtHdr.getDirRva
      rw [hn, if_pos (by omega), if_pos (by omega)]
    · unfold NtHdr.getDirSize
      rw [hn, if_pos (by omega), if_pos (by omega)]

theorem getExports_mono {p r : Image} (h : SameSecs p r) (hd : SameDir p r dirExport) : OkLe p.getExports r.getExports := by
  unfold Image.getExports
  rw [hd.has, hd.rva, hd.size]
  exact OkLe.bind' fun _ => OkLe.ite (fun _ => OkLe.bind' fun _ => OkLe.bind' fun _ => OkLe.bind (h.dataLenFrom _ _ _ _) fun _ =>
    OkLe.bind' fun _ => OkLe.bind (h.readT _ _ _ _) fun _ =>
    OkLe.bind (OkLe.bind (h.strAt _ _) fun _ => OkLe.refl _) fun _ => OkLe.ite (fun _ => OkLe.refl _) fun _ =>
      OkLe.bind (h.exportCheck _ _ _) fun _ => OkLe.bind (h.exportLoop _ _ _ _ _) fun _ => OkLe.refl _) fun _ => OkLe.refl _

theorem getImports_mono {p r : Image} (h : SameSecs p r) (hd : SameDir p r dirImport) : OkLe p.getImports r.getImports := by
  unfold Image.getImports
  rw [hd.has, hd.rva]
  exact OkLe.bind' fun _ => OkLe.ite (fun _ => OkLe.bind' fun _ => OkLe.bind (h.readT _ _ _ _) fun _ =>
    h.importLoop _ _) fun _ => OkLe.refl _

theorem getResources_mono {p r : Image} (h : SameSecs p r) (hd : SameDir p r dirResource) :
    OkLe p.getResources r.getResources := by
  unfold Image.getResources
  rw [hd.has, hd.rva]
  generalize 2147483649 = fuel
  exact OkLe.bind' fun _ => OkLe.ite (fun _ => OkLe.bind' fun _ => OkLe.bind (h.resDir _ _ _ _) fun _ => OkLe.refl _)
    fun _ => OkLe.refl _

theorem getExceptions_mono {p r : Image} (h : SameSecs p r) (hd : SameDir p r dirException) :
    OkLe p.getExceptions r.getExceptions := by
  unfold Image.getExceptions
  rw [hd.has, hd.rva]
  exact OkLe.bind' fun _ => OkLe.ite (fun _ => OkLe.bind' fun _ => OkLe.bind (h.dataLenFrom _ _ _ _) fun _ =>
    OkLe.bind' fun _ => OkLe.bind' fun _ => OkLe.bind (h.readT _ _ _ _) fun _ => h.excLoop _ _) fun _ => OkLe.refl _

theorem getRelocations_mono {p r : Image} (h : SameSecs p r) (hd : SameDir p r dirBaseReloc) (hc : r.nt.chars = p.nt.chars)
    (b : Bool) : OkLe (p.getRelocations b) (r.getRelocations b) := by
  have hr : r.hasReloc = p.hasReloc := by
    have := hd.has
    unfold Image.hasDir at this
    unfold Image.hasReloc
    rw [this, hc]
  unfold Image.getRelocations
  rw [hr, hd.rva, hd.size]
  exact OkLe.bind' fun _ => OkLe.ite (fun _ => OkLe.bind' fun _ => OkLe.bind (h.dataLenFrom _ _ _ _) fun _ =>
    OkLe.bind' fun _ => OkLe.bind (h.readT _ _ _ _) fun _ => OkLe.bind' fun _ => OkLe.bind' fun _ => h.relocBlocks _ _ _ _ _ _)
    fun _ => OkLe.refl _

theorem getConfig_mono {p r : Image} (h : SameSecs p r) (hd : SameDir p r dirLoadConfig) : OkLe p.getConfig r.getConfig := by
  unfold Image.getConfig
  rw [hd.has, hd.rva, h.kind]
  exact OkLe.bind' fun _ => OkLe.bind' fun _ => OkLe.bind' fun _ => OkLe.bind (h.readT _ _ _ _) fun _ => OkLe.bind' fun _ =>
    OkLe.bind' fun _ => OkLe.bind (h.seLoop _ _ _) fun _ => OkLe.bind (h.lockPrefixes _) fun _ => OkLe.refl _

theorem getBound_mono {p r : Image} (h : SameSecs p r) (hd : SameDir p r dirBoundImport) : OkLe p.getBound r.getBound := by
  unfold Image.getBound
  rw [hd.has, hd.rva, hd.size]
  exact OkLe.bind' fun _ => OkLe.ite (fun _ => OkLe.bind' fun _ => OkLe.bind (h.dataLenFrom _ _ _ _) fun _ => OkLe.bind' fun _ =>
    OkLe.bind' fun _ => OkLe.bind (h.ptr _ _ _) fun _ => OkLe.refl _) fun _ => OkLe.refl _

theorem getTls_mono {p r : Image} (h : SameSecs p r) (hd : SameDir p r dirTls) : OkLe p.getTls r.getTls := by
  unfold Image.getTls
  rw [hd.has, hd.rva, h.kind]
  refine OkLe.bind' fun _ => OkLe.bind' fun _ => OkLe.bind' fun _ => OkLe.bind (h.readT _ _ _ _) fun _ => ?_
  dsimp only
  simp only [h.tlsFixed, h.rvaOrZero]
  exact OkLe.bind (h.tlsCheck _ _) fun _ => OkLe.bind' fun _ => OkLe.bind' fun _ => OkLe.bind' fun _ => OkLe.bind' fun _ =>
    OkLe.bind (h.tlsRaw _ _) fun _ => OkLe.bind (h.tlsCallbacks _ _) fun _ => OkLe.refl _

/-- What is read from the sections of `p` is read from `r`, too. -/
structure ReadsAs (p r : Image) : Prop where
  exports : ∀ v, p.getExports = .ok v → r.getExports = .ok v
  imports : ∀ v, p.getImports = .ok v → r.getImports = .ok v
  resources : ∀ v, p.getResources = .ok v → r.getResources = .ok v
  exceptions : ∀ v, p.getExceptions = .ok v → r.getExceptions = .ok v
  relocations : ∀ b v, p.getRelocations b = .ok v → r.getRelocations b = .ok v
  config : ∀ v, p.getConfig = .ok v → r.getConfig = .ok v
  tls : ∀ v, p.getTls = .ok v → r.getTls = .ok v

/-- The image loaded from a saved one has the same sections and directories. -/
theorem saved_same {p q : Image} {strip chg sb strict dbg : Bool} {out : Bytes} {pre : List (Nat × Nat)}
    (hp : pre.length = 16) (hd : ∀ d ∈ pre, d.1 < 2 ^ 32) (hv : p.Saveable strip chg sb) (hn : p.nt.numRva ≠ 0)
    (h : p.rebuildPe strip chg sb = .ok (q, out)) :
    ∃ r, load p.kind strict false dbg pre out = .ok r ∧ SameSecs p.noHdr r ∧ r.nt.chars = p.nt.chars ∧
      ∀ id, id ≠ dirBoundImport ∨ p.savesBound sb = false → SameDir p.noHdr r id := by
  obtain ⟨r, h1, h2, h3, h4, h5, -⟩ := C19_save_load p q strip chg sb strict dbg out pre hp hd hv h
  obtain ⟨hq, e1, -⟩ := rebuildPe_ok hv.sized hv.table.fa h
  have en : q.nt = rebuiltNt p strip chg (p.savesBound sb) := by rw [e1]; rfl
  have ha : r.nt.secAlign = p.nt.secAlign := by rw [h3]; show q.nt.secAlign = _; rw [en]; rfl
  have hmap : ∀ s ∈ r.secs, ∃ t ∈ p.secs, t.noPtr = s.noPtr := by
    intro s hs
    have : s.noPtr ∈ r.secs.map Sec.noPtr := List.mem_map_of_mem hs
    have h6 : r.secs.map Sec.noPtr = p.secs.map Sec.noPtr := h5
    rw [h6, List.mem_map] at this
    exact this
  have hsp : ∀ s : Sec, s.noPtr.span p.nt.secAlign = s.span p.nt.secAlign := fun _ => rfl
  have hfit : ∀ s ∈ r.secs, s.va + s.span r.nt.secAlign < 2 ^ 32 := by
    intro s hs
    obtain ⟨t, ht, e⟩ := hmap s hs
    have e1 : s.va = t.va := show s.noPtr.va = t.noPtr.va by rw [e]
    rw [ha, e1, ← hsp s, ← e, hsp t]
    exact (hv.table.fits t ht).fin
  have hvs : ∀ s ∈ r.secs, s.vsize ≠ 0 := by
    intro s hs
    obtain ⟨t, ht, e⟩ := hmap s hs
    have e1 : s.vsize = t.vsize := show s.noPtr.vsize = t.noPtr.vsize by rw [e]
    rw [e1]
    exact (hv.sizes t ht).2.1
  have hal : ∀ s, r.secs.head? = some s → r.nt.secAlign ∣ s.va := by
    intro s hs
    obtain ⟨t, ht, e⟩ := hmap s (List.mem_of_head? hs)
    have e1 : s.va = t.va := show s.noPtr.va = t.noPtr.va by rw [e]
    rw [e1, ha]
    exact hv.table.aligned t ht
  obtain ⟨-, hb, -⟩ := C15_valid_table_partial p.kind strict false dbg pre hp out r h1 hfit hvs hal
  refine ⟨r, h1, ⟨h2, ?_, ha, h5, rfl, hb⟩, ?_, ?_⟩
  · rw [h3]; show q.nt.imageBase = _; rw [en]; rfl
  · rw [h3]; show q.nt.chars = _; rw [en]; rfl
  · intro id hid
    have hc := hv.sized.dirs.count
    have hsl := hv.sized.dirs.slots
    have hnr : r.nt.numRva = p.nt.numRva := by rw [h3]; show q.nt.numRva = _; rw [en]; rfl
    refine sameDir_of (p := p.noHdr) hnr (by show 1 ≤ p.nt.numRva; omega) hc (fun hi => ?_)
    change id < p.nt.numRva at hi
    show r.nt.dirs[id]? = p.nt.dirs[id]?
    rw [h3]
    show (q.nt.dirs.take p.nt.numRva ++ pre.drop p.nt.numRva)[id]? = _
    have hlen : (rebuiltImage p strip chg (p.savesBound sb)).nt.dirs.length = 16 := (rebuilt_dirsOk hv.sized strip chg _).slots
    rw [e1, List.getElem?_append_left (by rw [List.length_take, hlen]; omega), List.getElem?_take, if_pos hi, rebuilt_dirs]
    split
    · next hs =>
      rcases hid with hid | hid
      · rw [List.getElem?_set_ne (show (11 : Nat) ≠ id from fun e => hid e.symm)]
      · rw [hid] at hs; exact absurd hs.1 (by decide)
    · rfl

/-- C68: when an image is saved and loaded again, everything that could be read from its sections can be read again: exports,
    imports, resources, exception data, relocations, load configuration and TLS. Bound imports, too, unless the rebuilder moves
    them behind the section table. `noHdr` leaves out what is read from header bytes, which the rebuilder does not keep. -/
theorem C68_saved_directories (p q : Image) (strip chg sb strict dbg : Bool) (out : Bytes) (pre : List (Nat × Nat))
    (hp : pre.length = 16) (hd : ∀ d ∈ pre, d.1 < 2 ^ 32) (hv : p.Saveable strip chg sb) (hn : p.nt.numRva ≠ 0)
    (h : p.rebuildPe strip chg sb = .ok (q, out)) :
    ∃ r, load p.kind strict false dbg pre out = .ok r ∧ ReadsAs p.noHdr r ∧
      (p.savesBound sb = false → ∀ v, p.noHdr.getBound = .ok v → r.getBound = .ok v) := by
  obtain ⟨r, h1, h2, h3, h4⟩ := saved_same (strict := strict) (dbg := dbg) hp hd hv hn h
  refine ⟨r, h1, ?_, fun hs => getBound_mono h2 (h4 _ (.inr hs))⟩
  exact ⟨getExports_mono h2 (h4 _ (.inl (by decide))), getImports_mono h2 (h4 _ (.inl (by decide))),
    getResources_mono h2 (h4 _ (.inl (by decide))), getExceptions_mono h2 (h4 _ (.inl (by decide))),
    fun b => getRelocations_mono h2 (h4 _ (.inl (by decide))) h3 b, getConfig_mono h2 (h4 _ (.inl (by decide))),
    getTls_mono h2 (h4 _ (.inl (by decide)))⟩

end PE
