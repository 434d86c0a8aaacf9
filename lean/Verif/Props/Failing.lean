/-
C85: what a call leaves behind when it throws.
-/
import Verif.Lemmas.FailingSimple
import Verif.Props.Rva
namespace PE

/-! ### The stepwise model is a model of the same functions -/

/-- The stepwise functions return, throw and run into undefined behaviour exactly as the functions of the other models do,
    with the same results. -/
theorem C85_same_edit (p : Image) :
    (∀ a, (setFileAlignmentM a).result p = p.setFileAlignment a >>= fun q => .ok (q, ())) ∧
    (∀ i, (realignSectionM i).result p = p.realignSection i >>= fun q => .ok (q, ())) ∧
    (∀ a, (realignFileM a).result p = p.realignFile a >>= fun q => .ok (q, ())) ∧
    (∀ i v, (setVirtualSizeM i v).result p = p.setSectionVirtualSize i v >>= fun q => .ok (q, ())) ∧
    (∀ i b, i < p.secs.length → (recalculateM i b).result p = p.recalculateSectionSizes i b >>= fun q => .ok (q, ())) ∧
    (∀ i rva size k, (expandM i rva size k).result p = p.expandSection i rva size k) ∧
    (∀ s u, (addSectionM s u).result p = p.addSection s u >>= fun q => .ok (q, ())) :=
  ⟨fun a => setFileAlignmentM_result a p, fun i => realignSectionM_result i p, fun a => realignFileM_result a p,
    fun i v => setVirtualSizeM_result i v p, fun _ b hi => recalculateM_result (List.getElem?_eq_getElem hi) b,
    fun i rva size k => expandM_result i rva size k p, fun s u => addSectionM_result s u p⟩

/-- The same for the rebuilders, rebasing and saving. -/
theorem C85_same_rebuild (p : Image) :
    (∀ info l i off save strip, (rebuildExportsM info l i off save strip).result p = p.rebuildExports info l i off save strip) ∧
    (∀ l i off save strip, (rebuildBoundM l i off save strip).result p = p.rebuildBound l i off save strip) ∧
    (∀ r i off save strip, (rebuildResourcesM r i off save strip).result p = p.rebuildResources r i off save strip) ∧
    (∀ l i off save strip, (rebuildRelocationsM l i off save strip).result p = p.rebuildRelocations l i off save strip) ∧
    (∀ c i off w1 w2 save strip, (rebuildConfigM c i off w1 w2 save strip).result p = p.rebuildConfig c i off w1 w2 save strip) ∧
    (∀ t i off w1 w2 k save strip, (rebuildTlsM t i off w1 w2 k save strip).result p = p.rebuildTls t i off w1 w2 k save strip) ∧
    (∀ ls i c off b1 b2 b3, (rebuildImportsM ls i c off b1 b2 b3).result p = p.rebuildImports ls i c off b1 b2 b3) ∧
    (∀ l b, (rebaseM l b).result p = p.rebase l b >>= fun q => .ok (q, ())) ∧
    (∀ b1 b2 b3, (rebuildPeM b1 b2 b3).result p = p.rebuildPe b1 b2 b3) :=
  ⟨fun info l i off save strip => rebuildExportsM_result info l i off save strip p, fun l i off save strip => rebuildBoundM_result l i off save strip p,
    fun r i off save strip => rebuildResourcesM_result r i off save strip p, fun l i off save strip => rebuildRelocationsM_result l i off save strip p,
    fun c i off w1 w2 save strip => rebuildConfigM_result c i off w1 w2 save strip p,
    fun t i off w1 w2 k save strip => rebuildTlsM_same t i off w1 w2 k save strip p,
    fun ls i c off b1 b2 b3 => rebuildImportsM_result ls i c off b1 b2 b3 p, fun l b => rebaseM_result l b p,
    fun b1 b2 b3 => rebuildPeM_result b1 b2 b3 p⟩

/-! ### All or nothing -/

/-- If one of these calls throws then the image is what it was before: `set_file_alignment`, `realign_section`,
    `realign_file`, `set_section_virtual_size`, `add_section`, `set_directory_rva`, `set_directory_size`. -/
theorem C85_strong (p : Image) :
    (∀ a, Strong (setFileAlignmentM a) p) ∧ (∀ i, Strong (realignSectionM i) p) ∧ (∀ a, Strong (realignFileM a) p) ∧
    (∀ i v, Strong (setVirtualSizeM i v) p) ∧ (∀ s u, Strong (addSectionM s u) p) ∧
    (∀ id v, Strong (setDirM fun h => h.setDirRva id v) p) ∧ (∀ id v, Strong (setDirM fun h => h.setDirSize id v) p) :=
  ⟨fun a => setFileAlignmentM_strong a p, fun i => realignSectionM_strong i p, fun a => realignFileM_strong a p,
    fun _ _ _ he => (setVirtualSizeM_exn he).1, fun s u => addSectionM_strong s u p, fun _ _ => setDirM_strong _ p,
    fun _ _ => setDirM_strong _ p⟩

/-- `expand_section` of a section that has a virtual size: all or nothing. -/
theorem C85_expand_partial (p : Image) (i rva size : Nat) (k : ExpandType) (hv : ∀ s, p.secs[i]? = some s → s.vsize ≠ 0) :
    Strong (expandM i rva size k) p := expandM_strong hv rva size k

/-- `recalculate_section_sizes` (within 2 GiB) throws only for a void section; the raw size of this section is 0 then. -/
theorem C85_recalculate_partial (p : Image) (i : Nat) (s : Sec) (b : Bool) (e : Err) (h : p.secs[i]? = some s)
    (hfa : Pow2 p.nt.fileAlign) (hsa : Pow2 p.nt.secAlign) (hd : s.data.length ≤ 2147483648) (hv : s.vsize ≤ 2147483648)
    (he : (recalculateM i b p).1 = throwE e) :
    e = .zeroSectionSizes ∧ s.data = [] ∧ s.vsize = 0 ∧
      (recalculateM i b p).2 = { p with secs := p.secs.set i { s with rawSize := 0 } } := recalculateM_exn h hfa hsa hd hv he

/-- Rebuilders that write without converting anything: in an image with usual sections, and if the directory that is to be
    stored exists, an exception means that nothing has happened (unless a section has become larger than 2 GiB). -/
theorem C85_rebuild_partial (p : Image) (hp : Small p) (i off : Nat) (save strip : Bool) :
    (∀ info l, CanSave p save dirExport → StrongWithin (rebuildExportsM info l i off save strip) p) ∧
    (∀ l, CanSave p save dirBoundImport → StrongWithin (rebuildBoundM l i off save strip) p) ∧
    (∀ l, (∀ s, p.secs[i]? = some s → s.vsize ≠ 0) → CanSave p save dirBaseReloc →
      StrongWithin (rebuildRelocationsM l i off save strip) p) :=
  ⟨fun info l hc => rebuildExportsM_within hp info l i off save strip hc, fun l hc => rebuildBoundM_within hp l i off save strip hc,
    fun l hv hc => rebuildRelocationsM_within hp l i off save strip hv hc⟩

/-- `rebuild_imports` without rewriting of saved tables: the same. -/
theorem C85_imports_partial (p : Image) (hp : Small p) (ls : List ImportLib) (i : Nat) (cf : ImportCfg) (off : Nat)
    (setHdrs zeroIat strip : Bool) (hr : cf.rewrite = false) (hv : ∀ s, p.secs[i]? = some s → s.vsize ≠ 0)
    (hl : strip = true → i + 1 = p.secs.length) (hc : CanSave p setHdrs dirImport) (hc2 : CanSave p (setHdrs && zeroIat) dirIat) :
    StrongWithin (rebuildImportsM ls i cf off setHdrs zeroIat strip) p :=
  rebuildImportsM_within hp ls i cf off setHdrs zeroIat strip hr hv hl hc hc2

/-- With rewriting, an exception may leave the section larger than before and bytes changed, here and in the saved tables;
    nothing else. -/
theorem C85_imports_rewrite (p : Image) (hp : Small p) (ls : List ImportLib) (i : Nat) (cf : ImportCfg) (off : Nat)
    (setHdrs zeroIat strip : Bool) (hv : ∀ s, p.secs[i]? = some s → s.vsize ≠ 0)
    (hl : strip = true → i + 1 = p.secs.length) (hc : CanSave p setHdrs dirImport) (hc2 : CanSave p (setHdrs && zeroIat) dirIat)
    (e : Err) (he : (rebuildImportsM ls i cf off setHdrs zeroIat strip p).1 = throwE e)
    (hn : NoHuge (rebuildImportsM ls i cf off setHdrs zeroIat strip p).2) :
    (rebuildImportsM ls i cf off setHdrs zeroIat strip p).2 = p ∨
      GrownBytes p (rebuildImportsM ls i cf off setHdrs zeroIat strip p).2 i :=
  rebuildImportsM_grown hp ls i cf off setHdrs zeroIat strip hv hl hc hc2 he hn

/-- Rebuilders that convert something after the section has been changed: if they throw then nothing has happened, or only
    the raw data of the section have changed, and then for a reason: a PE32 image (addresses do not fit), a name that has no
    UCS-2 form. -/
theorem C85_leaves_data (p : Image) (hp : Small p) (i off : Nat) (save strip : Bool) :
    (∀ c wse wlock, CanSave p save dirLoadConfig →
      LeavesData (rebuildConfigM c i off wse wlock save strip) p i (p.kind = .pe32)) ∧
    (∀ t k, CanSave p save dirTls → LeavesData (rebuildTlsM t i off false false k save strip) p i (p.kind = .pe32)) ∧
    (∀ r, CanSave p save dirResource → LeavesData (rebuildResourcesM r i off save strip) p i (¬ AllNamed r.es)) := by
  have hk : p.kind ≠ .pe64 → p.kind = .pe32 := by cases p.kind <;> simp
  refine ⟨fun c wse wlock hc e he hn => ?_, fun t k hc e he hn => ?_, fun r hc => rebuildResourcesM_leaves hp r i off save strip hc⟩
  · exact (rebuildConfigM_leaves hp c i off wse wlock save strip hc e he hn).imp_right fun x => ⟨hk x.1, x.2⟩
  · exact (rebuildTlsM_leaves hp t i off k save strip hc e he hn).imp_right fun x => ⟨hk x.1, x.2⟩

/-- Therefore: all or nothing for PE32+ images, and for trees whose names can be converted. -/
theorem C85_converting_partial (p : Image) (hp : Small p) (i off : Nat) (save strip : Bool) :
    (p.kind = .pe64 → ∀ c wse wlock, CanSave p save dirLoadConfig → StrongWithin (rebuildConfigM c i off wse wlock save strip) p) ∧
    (p.kind = .pe64 → ∀ t k, CanSave p save dirTls → StrongWithin (rebuildTlsM t i off false false k save strip) p) ∧
    (∀ r, AllNamed r.es → CanSave p save dirResource → StrongWithin (rebuildResourcesM r i off save strip) p) :=
  ⟨fun hk c w1 w2 hc => (rebuildConfigM_leaves hp c i off w1 w2 save strip hc).strong fun x => x hk,
    fun hk t k hc => (rebuildTlsM_leaves hp t i off k save strip hc).strong fun x => x hk,
    fun r hr hc => (rebuildResourcesM_leaves hp r i off save strip hc).strong fun x => x hr⟩

/-- What an operation leaves: its outcome and image, with an exception instead of a return. -/
def Image.noPlace {α : Type} (r : Res α × Image) : Res α × Image :=
  match r with
  | (.ok _, q) => (throwE .directoryDoesNotExist, q)
  | (.error e, q) => (.error e, q)

theorem FailsAtEnd.left {α : Type} {m m' : IM α} {id : Nat} (h : FailsAtEnd m m' id) {p : Image} (hp : p.nt.numRva ≤ id) :
    m p = Image.noPlace (m' p) := by
  rw [h p hp]
  rcases hm : m' p with ⟨e | a, q⟩
  · rw [run_bind_error hm]; rfl
  · rw [run_bind_ok hm]; rfl

/-- An image whose number of directories does not reach the directory: the call does all the work of a call that is not
    to store it, and throws then. -/
theorem C85_no_place (p : Image) (i off : Nat) (strip : Bool) :
    (p.nt.numRva ≤ dirExport → ∀ info l, rebuildExportsM info l i off true strip p = Image.noPlace (rebuildExportsM info l i off false strip p)) ∧
    (p.nt.numRva ≤ dirBoundImport → ∀ l, rebuildBoundM l i off true strip p = Image.noPlace (rebuildBoundM l i off false strip p)) ∧
    (p.nt.numRva ≤ dirResource → ∀ r, rebuildResourcesM r i off true strip p = Image.noPlace (rebuildResourcesM r i off false strip p)) ∧
    (p.nt.numRva ≤ dirBaseReloc → ∀ l, rebuildRelocationsM l i off true strip p = Image.noPlace (rebuildRelocationsM l i off false strip p)) ∧
    (p.nt.numRva ≤ dirLoadConfig → ∀ c w1 w2, rebuildConfigM c i off w1 w2 true strip p = Image.noPlace (rebuildConfigM c i off w1 w2 false strip p)) ∧
    (p.nt.numRva ≤ dirTls → ∀ t w1 w2 k, rebuildTlsM t i off w1 w2 k true strip p = Image.noPlace (rebuildTlsM t i off w1 w2 k false strip p)) ∧
    (p.nt.numRva ≤ dirImport → ∀ ls c z, rebuildImportsM ls i c off true z strip p = Image.noPlace (rebuildImportsM ls i c off false z strip p)) :=
  ⟨fun h info l => (rebuildExportsM_missing info l i off strip).left h, fun h l => (rebuildBoundM_missing l i off strip).left h,
    fun h r => (rebuildResourcesM_missing r i off strip).left h, fun h l => (rebuildRelocationsM_missing l i off strip).left h,
    fun h c w1 w2 => (rebuildConfigM_missing c i off w1 w2 strip).left h,
    fun h t w1 w2 k => (rebuildTlsM_missing t i off w1 w2 k strip).left h,
    fun h ls c z => (rebuildImportsM_missing ls i c off z strip).left h⟩

/-- `rebase_image` that throws has changed bytes of sections and headers only; in particular the image base is the old one. -/
theorem C85_rebase (p : Image) (l : List RelocTable) (b : Nat) (e : Err) (he : (rebaseM l b p).1 = throwE e) :
    OnlyBytes p (rebaseM l b p).2 := rebaseM_exn he

/-- The relocations in front of the one that throws have been applied, the others have not. -/
theorem C85_rebase_prefix (p : Image) (l : List RelocTable) (b : Nat) (e : Err) (he : (rebaseM l b p).1 = throwE e) :
    ∃ pre r rest, l.flatMap RelocTable.sites = pre ++ r :: rest ∧
      p.applySites (p.kind.wrap (sub64 (w64 b) p.nt.imageBase)) pre = .ok (rebaseM l b p).2 ∧
      (rebaseM l b p).2.rebaseOne (p.kind.wrap (sub64 (w64 b) p.nt.imageBase)) r = throwE e := rebaseM_applies he

/-- `rebuild_pe` that is not asked to keep bound imports and throws: the image has not changed, except that the DOS header
    may have been stripped. -/
theorem C85_rebuild_pe (p : Image) (strip changeSize : Bool) (e : Err) (he : (rebuildPeM strip changeSize false p).1 = throwE e) :
    (rebuildPeM strip changeSize false p).2 = p ∨
    (strip = true ∧ (rebuildPeM strip changeSize false p).2 = { p with stub := [], nt := { p.nt with baseOfCode := 16 } }) := by
  rcases rebuildPeM_exn he with h | h
  · exact Or.inl h
  · cases strip
    · exact Or.inl h
    · exact Or.inr ⟨rfl, h⟩

/-! ### Where it is not all or nothing -/

/-- An image without directories. -/
def noDirs : Image := { demoImage with nt := { demoImage.nt with numRva := 0 } }

/-- The exports are written, the section gets new sizes, then the directory is found missing. -/
theorem C85_no_place_case : ∃ e, (rebuildExportsM {} [] 1 0 true true noDirs).1 = throwE e ∧ Small noDirs ∧
    ((rebuildExportsM {} [] 1 0 true true noDirs).2.secs.map fun s => s.data.length) = [8, 45] := by
  refine ⟨.directoryDoesNotExist, by decide +kernel, ?_, by decide +kernel⟩
  constructor
  · exact ⟨9, by decide, by decide⟩
  · exact ⟨12, by decide, by decide⟩
  · unfold NoHuge; decide
  · decide
  · decide
  · decide

/-- `recalculate_section_sizes` of a section that was emptied. -/
theorem C85_void_case : ∃ p, (recalculateM 0 false p).1 = throwE .zeroSectionSizes ∧
    ((p.secs.map Sec.rawSize = [512]) ∧ (recalculateM 0 false p).2.secs.map Sec.rawSize = [0]) :=
  ⟨{ demoImage with secs := [{ va := 0x1000, vsize := 0, rawSize := 512, rawPtr := 512 }] }, by decide +kernel⟩

/-- A PE32 image at the end of the address space: the address of the handler table does not fit; the section has grown. -/
theorem C85_config_case : ∃ p : Image, ∃ c, p.kind = .pe32 ∧
    (rebuildConfigM c 1 0 true false true true p).1 = throwE .incorrectAddressConversion ∧
    (p.secs.map fun s => s.data.length) = [8, 16] ∧
    ((rebuildConfigM c 1 0 true false true true p).2.secs.map fun s => s.data.length) = [8, 76] :=
  ⟨{ demoImage with nt := { demoImage.nt with imageBase := 0xFFFFF000 } }, { handlers := [0x10] }, by decide +kernel⟩

/-- TLS callbacks for which there is no place: the structure has been written over the old bytes. -/
theorem C85_tls_case : ∃ t : TlsInfo,
    (rebuildTlsM t 0 0 true false .raw true true demoImage).1 = throwE .insufficientSpace ∧
    (demoImage.secs.map fun s => s.data.length) = [8, 16] ∧
    ((rebuildTlsM t 0 0 true false .raw true true demoImage).2.secs.map fun s => s.data.length) = [24, 16] :=
  ⟨{ index := 0x1000, callbacksRva := 0x1014, callbacks := [0x1000, 0x1000, 0x1000] }, by decide +kernel⟩

/-- A saved import address table that is too small: names and descriptors have been written, the section has grown. -/
theorem C85_imports_case : ∃ ls,
    (rebuildImportsM ls 1 { rewrite := true } 0 true true true demoImage).1 = throwE .insufficientSpace ∧
    ((rebuildImportsM ls 1 { rewrite := true } 0 true true true demoImage).2.secs.map fun s => s.data.length) = [8, 62] :=
  ⟨[{ name := [65], rvaIat := 0x1004, funcs := [{ ordinal := 1 }] }], by decide +kernel⟩

/-- The second relocation is outside of the image: the first one has been applied, the image base is the old one. A
    second call with a good table would apply it again. -/
theorem C85_rebase_case : ∃ l e, (rebaseM l 0x500000 demoImage).1 = throwE e ∧
    (rebaseM l 0x500000 demoImage).2.nt.imageBase = demoImage.nt.imageBase ∧
    ((rebaseM l 0x500000 demoImage).2.secs[1]?.map fun s => s.data.take 4) ≠ (demoImage.secs[1]?.map fun s => s.data.take 4) :=
  ⟨[{ rva := 0x2000, relocs := [{ rva := 0, type := 3 }] }, { rva := 0x9000, relocs := [{ rva := 0, type := 3 }] }], .noSectionFound,
    by decide +kernel⟩

/-- Many sections behind a first section at 0x200. -/
def crowded : Image :=
  { demoImage with
    stub := [1, 2, 3, 4]
    nt := { demoImage.nt with secAlign := 512 }
    secs := (List.range 12).map fun k => { va := 0x200 * (k + 1), vsize := 0x200, rawSize := 0x200, data := zeros 0x200 } }

/-- `rebuild_pe` with `strip_dos_header` finds the headers too long after the stub was thrown away. -/
theorem C85_strip_case : (rebuildPeM true true false crowded).1 = throwE .cannotRebuildImage ∧ crowded.stub = [1, 2, 3, 4] ∧
    (rebuildPeM true true false crowded).2.stub = [] ∧ (rebuildPeM true true false crowded).2.nt.baseOfCode = 16 := by decide +kernel

/-- `rebuild_pe` that keeps bound imports stores their new address before it finds the headers too long. -/
theorem C85_bound_case : ∃ p : Image, (rebuildPeM false true true p).1 = throwE .cannotRebuildImage ∧
    p.nt.getDirRva dirBoundImport = .ok 4 ∧ (rebuildPeM false true true p).2.nt.getDirRva dirBoundImport ≠ .ok 4 :=
  ⟨{ crowded with nt := { crowded.nt with dirs := crowded.nt.dirs.set dirBoundImport (4, 8) } }, by decide +kernel⟩

/-- A name with a surrogate: its length and the header of the directory have been written. -/
theorem C85_resource_case : ∃ r, ¬ AllNamed r.es ∧
    (rebuildResourcesM r 1 0 true true demoImage).1 = throwE .encodingConvertionError ∧
    ((rebuildResourcesM r 1 0 true true demoImage).2.secs.map fun s => s.data.length) = [8, 49] := by
  refine ⟨{ es := [.data (.name [0xD800]) 0 [7]] }, ?_, by decide +kernel⟩
  intro h
  have := h.1 0xD800 (by simp)
  unfold Ucs2Char at this
  omega

/-! ### The hypotheses are met -/

theorem demoImage_small : Small demoImage := by
  constructor
  · exact ⟨9, by decide, by decide⟩
  · exact ⟨12, by decide, by decide⟩
  · unfold NoHuge; decide
  · decide
  · decide
  · decide

/-- Duplicated ordinals: the exception comes before anything was done. -/
example : (rebuildExportsM {} [{ ordinal := 1 }, { ordinal := 1 }] 1 0 true true demoImage).1 = throwE .duplicateExportedFunctionOrdinal ∧
    (rebuildExportsM {} [{ ordinal := 1 }, { ordinal := 1 }] 1 0 true true demoImage).2 = demoImage := by
  have h1 : (rebuildExportsM {} [{ ordinal := 1 }, { ordinal := 1 }] 1 0 true true demoImage).1 = throwE .duplicateExportedFunctionOrdinal := by
    decide +kernel
  exact ⟨h1, (C85_rebuild_partial demoImage demoImage_small 1 0 true true).1 _ _ (fun _ => by decide) _ h1 (by unfold NoHuge; decide +kernel)⟩

/-- No room in a section that is not the last one. -/
example : (rebuildRelocationsM [{ rva := 0, relocs := List.replicate 300 { rva := 0, type := 3 } }] 0 0 true true demoImage).1 =
    throwE .insufficientSpace := by decide +kernel

example : ∃ e, (addSectionM {} true demoImage).1 = throwE e ∧ (addSectionM {} true demoImage).2 = demoImage :=
  ⟨.zeroSectionSizes, by decide +kernel, (C85_strong demoImage).2.2.2.2.1 _ _ .zeroSectionSizes (by decide +kernel)⟩

example : ∃ e, (realignFileM 3 demoImage).1 = throwE e := ⟨.incorrectFileAlignment, by decide +kernel⟩

end PE
