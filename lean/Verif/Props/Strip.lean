/-
C97: dropping unused directories.
-/
import Verif.Props.Absent
import Verif.Props.BoundKept
import Verif.Props.Stub
import Verif.Props.Survive
namespace PE

/-- Both images have the directory at the same place, or neither has it. -/
def DirAgrees (p r : Image) (id : Nat) : Prop := SameDir p r id ∨ (p.hasDir id = .ok false ∧ r.hasDir id = .ok false)

theorem readsAs_of {p r : Image} (h : SameSecs p r) (hc : r.nt.chars = p.nt.chars)
    (hd : ∀ id, id ∈ [0, 1, 2, 3, 5, 9, 10, 11] → DirAgrees p r id) :
    ReadsAs p r ∧ ∀ v, p.getBound = .ok v → r.getBound = .ok v := by
  have habs : ∀ {q : Image} {id : Nat}, q.hasDir id = .ok false → ReadsAbsent q (· = id) :=
    fun h => readsAbsent_of (fun j hj => by subst hj; exact h)
  refine ⟨⟨?_, ?_, ?_, ?_, ?_, ?_, ?_⟩, ?_⟩
  · rcases hd 0 (by decide) with g | ⟨g1, g2⟩
    · exact getExports_mono h g
    · intro v hv; rw [(habs g1).exports rfl] at hv; rw [(habs g2).exports rfl]; exact hv
  · rcases hd 1 (by decide) with g | ⟨g1, g2⟩
    · exact getImports_mono h g
    · intro v hv; rw [(habs g1).imports rfl] at hv; rw [(habs g2).imports rfl]; exact hv
  · rcases hd 2 (by decide) with g | ⟨g1, g2⟩
    · exact getResources_mono h g
    · intro v hv; rw [(habs g1).resources rfl] at hv; rw [(habs g2).resources rfl]; exact hv
  · rcases hd 3 (by decide) with g | ⟨g1, g2⟩
    · exact getExceptions_mono h g
    · intro v hv; rw [(habs g1).exceptions rfl] at hv; rw [(habs g2).exceptions rfl]; exact hv
  · intro b
    rcases hd 5 (by decide) with g | ⟨g1, g2⟩
    · exact getRelocations_mono h g hc b
    · intro v hv; rw [(habs g1).relocations rfl] at hv; rw [(habs g2).relocations rfl]; exact hv
  · rcases hd 10 (by decide) with g | ⟨g1, g2⟩
    · exact getConfig_mono h g
    · intro v hv; rw [(habs g1).config rfl] at hv; cases hv
  · rcases hd 9 (by decide) with g | ⟨g1, g2⟩
    · exact getTls_mono h g
    · intro v hv; rw [(habs g1).tls rfl] at hv; cases hv
  · rcases hd 11 (by decide) with g | ⟨g1, g2⟩
    · exact getBound_mono h g
    · intro v hv; rw [(habs g1).bound rfl] at hv; rw [(habs g2).bound rfl]; exact hv

/-- The image with `k` directories left and without stub. -/
def Image.stripped (p : Image) (k : Nat) : Image := { p with stub := [], nt := { p.nt with numRva := k } }

/-- The directories from `k` on are not used (apart from the IAT). -/
def UnusedFrom (h : NtHdr) (k : Nat) : Prop := ∀ i, k ≤ i → i < h.numRva → i ≠ dirIat → (h.dirs[i]?.getD (0, 0)).1 = 0

theorem stripped_agrees {p : Image} {k : Nat} (ho : p.nt.DirsOk) (h1 : 1 ≤ p.nt.numRva) (hk : k ≤ p.nt.numRva) (hk0 : 1 ≤ k) (hu : UnusedFrom p.nt k)
    {id : Nat} (hid : id ≠ dirIat) (h16 : id < 16) : DirAgrees p (p.stripped k) id := by
  by_cases hl : id < k
  · left
    have e : (p.stripped k).nt.dirAt id = p.nt.dirAt id := rfl
    have e2 : (p.stripped k).nt.numRva = k := rfl
    have h2 := ho.count
    constructor
    · unfold Image.hasDir NtHdr.directoryExists
      rw [e, e2, if_pos (by unfold sub32; omega), if_pos (by unfold sub32; omega)]
    · unfold NtHdr.getDirRva
      rw [e, e2, if_neg (by omega), if_neg (by omega)]
    · unfold NtHdr.getDirSize
      rw [e, e2, if_neg (by omega), if_neg (by omega)]
  · right
    have hp : p.hasDir id = .ok false := by
      unfold Image.hasDir
      rw [NtHdr.directoryExists_eq ho h1]
      by_cases hn : id < p.nt.numRva
      · rw [decide_eq_false (p := (p.nt.dirs[id]?.getD (0, 0)).1 ≠ 0) (by simpa using hu id (by omega) hn hid), Bool.and_false]
      · rw [decide_eq_false hn, Bool.false_and]
    refine ⟨hp, ?_⟩
    have hok : (p.stripped k).nt.DirsOk := ⟨ho.slots, Nat.le_trans hk ho.count⟩
    unfold Image.hasDir
    rw [NtHdr.directoryExists_eq hok hk0]
    rw [decide_eq_false (show ¬ id < (p.stripped k).nt.numRva from hl), Bool.false_and]

/-- The image after `strip_stub_overlay` and `strip_data_directories`, as pe_stripper does it
    (/repo/src/samples/pe_stripper/main.cpp:30-34). -/
def Image.stripAll (p : Image) (minCount : Nat) (iat : Bool) : Res Image := do
  let r ← p.stripStub.nt.stripDataDirectories minCount iat
  .ok { p.stripStub with nt := r.1 }

theorem stripAll_eq {p : Image} (ho : p.nt.DirsOk) (m : Nat) (iat : Bool) :
    ∃ k, p.stripAll m iat = .ok (p.stripped k) ∧ k ≤ p.nt.numRva ∧ UnusedFrom p.nt k ∧
      ∀ i, i < p.nt.numRva → i ≠ dirIat → (p.nt.dirs[i]?.getD (0, 0)).1 ≠ 0 → i < k := by
  obtain ⟨k, h1, h2, h3, -, -⟩ := C13_strip_partial p.nt ho m iat
  have hu : UnusedFrom p.nt k := fun i a b c => by
    rcases h3 i a b with h | ⟨h, -⟩
    · exact h
    · exact absurd h c
  refine ⟨k, ?_, h2, hu, fun i a b c => ?_⟩
  · unfold Image.stripAll
    show (p.nt.stripDataDirectories m iat >>= _) = _
    rw [h1]
    rfl
  · refine Nat.lt_of_not_le (fun h => c (hu i h a b))

/-- C97: `strip_stub_overlay` and `strip_data_directories` succeed and do not change what is read, as long as a directory other than the
    IAT is in use. Also the converse: nothing can be read that could not be read before. -/
theorem C97_strip_reads (p : Image) (ho : p.nt.DirsOk) (m : Nat) (iat : Bool)
    (hsome : ∃ i, i < p.nt.numRva ∧ i ≠ dirIat ∧ (p.nt.dirs[i]?.getD (0, 0)).1 ≠ 0) :
    ∃ q, p.stripAll m iat = .ok q ∧ q.secs = p.secs ∧ q.nt.dirs = p.nt.dirs ∧ 1 ≤ q.nt.numRva ∧ q.nt.numRva ≤ p.nt.numRva ∧
      (∀ id, id < 16 → id ≠ dirIat → q.hasDir id = p.hasDir id) ∧
      ReadsAs p.noHdr q.noHdr ∧ ReadsAs q.noHdr p.noHdr ∧ ∀ v, p.noHdr.getBound = .ok v ↔ q.noHdr.getBound = .ok v := by
  obtain ⟨k, h1, h2, h3, h4⟩ := stripAll_eq ho m iat
  obtain ⟨i, i1, i2, i3⟩ := hsome
  have hik := h4 i i1 i2 i3
  have hag : ∀ id, id ≠ dirIat → id < 16 → DirAgrees p (p.stripped k) id :=
    fun id a b => stripped_agrees ho (by omega) h2 (by omega) h3 a b
  have hag1 : ∀ id, id ∈ [0, 1, 2, 3, 5, 9, 10, 11] → DirAgrees p.noHdr (p.stripped k).noHdr id := by
    intro id hid
    have : id ≠ dirIat ∧ id < 16 := by revert id; decide
    rcases hag id this.1 this.2 with g | g
    · exact .inl ⟨g.has, g.rva, g.size⟩
    · exact .inr g
  have hag2 : ∀ id, id ∈ [0, 1, 2, 3, 5, 9, 10, 11] → DirAgrees (p.stripped k).noHdr p.noHdr id := by
    intro id hid
    rcases hag1 id hid with g | g
    · exact .inl ⟨g.has.symm, g.rva.symm, g.size.symm⟩
    · exact .inr ⟨g.2, g.1⟩
  have s1 : SameSecs p.noHdr (p.stripped k).noHdr := ⟨rfl, rfl, rfl, rfl, rfl, fun _ _ => Nat.zero_le _⟩
  have s2 : SameSecs (p.stripped k).noHdr p.noHdr := ⟨rfl, rfl, rfl, rfl, rfl, fun _ _ => Nat.zero_le _⟩
  obtain ⟨r1, b1⟩ := readsAs_of s1 rfl hag1
  obtain ⟨r2, b2⟩ := readsAs_of s2 rfl hag2
  refine ⟨_, h1, rfl, rfl, by show 1 ≤ k; omega, h2, fun id a b => ?_, r1, r2, fun v => ⟨b1 v, b2 v⟩⟩
  rcases hag id b a with g | g
  · exact g.has
  · rw [g.1, g.2]

theorem stripped_hasBound {p : Image} {k : Nat} (hk : k ≤ p.nt.numRva) (hu : UnusedFrom p.nt k) : (p.stripped k).HasBound ↔ p.HasBound := by
  constructor
  · exact fun h => ⟨Nat.lt_of_lt_of_le h.1 hk, h.2⟩
  · intro h
    refine ⟨?_, h.2⟩
    show 11 < k
    exact Nat.lt_of_not_le fun g => h.2 (hu 11 g h.1 (by decide))

theorem stripped_savesBound {p : Image} {k : Nat} (hk : k ≤ p.nt.numRva) (hu : UnusedFrom p.nt k) (sb : Bool) :
    (p.stripped k).savesBound sb = p.savesBound sb := by
  unfold Image.savesBound
  refine congrArg (fun x => sb && !x) (decide_eq_decide.mpr ?_)
  rw [stripped_hasBound hk hu]
  exact Iff.rfl

theorem stripped_dataStart {p : Image} {k : Nat} (ho : p.nt.DirsOk) (fa : Pow2 p.nt.fileAlign) (hk : k ≤ p.nt.numRva) (hu : UnusedFrom p.nt k)
    (strip sv : Bool) : (p.stripped k).tableEnd strip ≤ p.tableEnd strip ∧ (p.stripped k).dataStart strip sv ≤ p.dataStart strip sv := by
  have e1 : (p.stripped k).boundSize sv = p.boundSize sv := by
    unfold Image.boundSize
    simp only [stripped_hasBound hk hu]
    rfl
  have h16 := ho.count
  have ht : (p.stripped k).tableEnd strip ≤ p.tableEnd strip := by
    unfold Image.tableEnd
    have h1 : (p.stripped k).ntStart strip ≤ p.ntStart strip := by
      unfold Image.ntStart
      split
      · exact Nat.le_refl _
      · show 64 + ceilTo 0 4 ≤ _
        rw [ceilTo_zero]; omega
    show _ + (p.kind.sizeofNt - 8 * (16 - k)) + 40 * p.secs.length ≤ _
    omega
  refine ⟨ht, ?_⟩
  unfold Image.dataStart
  rw [e1]
  exact ceilTo_mono fa.pos (by omega)

/-- C97: what pe_stripper does. An image that can be saved can be saved after stripping (with and without the DOS header), and everything
    that could be read from its sections can be read from the new file; bound imports, too, where they are kept (in a section, or in the
    headers as in C98). The file has the directories that are left, and no stub. -/
theorem C97_file_partial (p : Image) (strip sb strict dbg iat : Bool) (m : Nat) (pre : List (Nat × Nat)) (hp : pre.length = 16)
    (hd : ∀ d ∈ pre, d.1 < 2 ^ 32) (hv : p.Saveable strip true sb) (hb : p.BoundReadable sb) (hl : p.hdrData.length < 4294967296)
    (hsome : ∃ i, i < p.nt.numRva ∧ i ≠ dirIat ∧ (p.nt.dirs[i]?.getD (0, 0)).1 ≠ 0)
    (hz : ∀ s ∈ p.secs, s.rawSize = 0 → s.rawPtr = 0) (hroom : ∀ s, p.secs.head? = some s → p.dataStart strip (p.savesBound sb) ≤ s.va) :
    ∃ q q' out r, p.stripAll m iat = .ok q ∧ q.rebuildPe strip true sb = .ok (q', out) ∧
      load p.kind strict false dbg pre out = .ok r ∧ r.nt.numRva = q.nt.numRva ∧ r.nt.entry = p.nt.entry ∧
      r.secs.map Sec.noPtr = p.secs.map Sec.noPtr ∧ ReadsAs p.noHdr r ∧
      (p.savesBound sb = false → ∀ v, p.noHdr.getBound = .ok v → r.getBound = .ok v) ∧
      (p.savesBound sb = true → p.HasBound → 0 < p.boundDir.2 → p.boundDir.1 + p.boundDir.2 ≤ p.hdrData.length →
        ∀ v, p.cutBound.getBound = .ok v → p.getBound = .ok v ∧ r.getBound = .ok v) := by
  have ho := hv.sized.dirs
  obtain ⟨k, h1, h2, h3, h4⟩ := stripAll_eq ho m iat
  obtain ⟨q, g1, -, -, g4, -, -, g7, -, g9⟩ := C97_strip_reads p ho m iat hsome
  have hq : q = p.stripped k := Except.ok.inj (g1.symm.trans h1)
  subst hq
  have hk1 : 1 ≤ k := g4
  have fa := hv.table.fa
  have hst := stripped_dataStart (k := k) ho fa h2 h3 strip
  have hsb := stripped_savesBound (p := p) h2 h3 sb
  have hsz : (p.stripped k).Sized := ⟨⟨ho.slots, Nat.le_trans h2 ho.count⟩, by show 0 < 4294967296; decide, hv.sized.secs, hv.sized.bound⟩
  have hsave : (p.stripped k).Saveable strip true sb := by
    refine { sized := hsz, shaped := ⟨hv.shaped.dos, hv.shaped.names, hv.shaped.raws⟩, mz := hv.mz, stub := by show 0 ≤ 2 ^ 31 - 68; decide, sig := hv.sig,
             magic := hv.magic, ntRange := ?_, dirsRange := hv.dirsRange, rel := hv.rel, table := ?_, some := hv.some,
             secRange := hv.secRange, sizes := hv.sizes, below := .inl rfl, noStale := ?_, fits := ?_ }
    · refine ⟨?_, hv.ntRange.bod⟩
      have h16 := ho.count
      have hk' : k < 4294967296 := by omega
      have hall := hv.ntRange.all
      show ∀ f ∈ ntFields p.kind { p.nt with numRva := k }, f.2 < 256 ^ f.1
      generalize p.nt = h at hall
      generalize p.kind = kd at hall
      intro f hf
      cases kd <;> simp only [ntFields, Kind.ptr, List.cons_append, List.nil_append, List.mem_cons, List.not_mem_nil, or_false] at hf hall
      · rcases hf with rfl | rfl | rfl | rfl | rfl | rfl | rfl | rfl | rfl | rfl | rfl | rfl | rfl | rfl | rfl | rfl | rfl |
          rfl | rfl | rfl | rfl | rfl | rfl | rfl | rfl | rfl | rfl | rfl | rfl | rfl | rfl | rfl | rfl | rfl | rfl | rfl |
          rfl | rfl <;> first | exact hk' | (exact hall _ (by simp))
      · rcases hf with rfl | rfl | rfl | rfl | rfl | rfl | rfl | rfl | rfl | rfl | rfl | rfl | rfl | rfl | rfl | rfl | rfl |
          rfl | rfl | rfl | rfl | rfl | rfl | rfl | rfl | rfl | rfl | rfl | rfl | rfl | rfl | rfl | rfl | rfl | rfl | rfl |
          rfl <;> first | exact hk' | (exact hall _ (by simp))
    · obtain ⟨a1, a2, a3, a4, a5, a6, a7, a8, a9, a10⟩ := hv.table
      exact ⟨a1, a2, a3, a4, a5, a6, a7, a8, a9, a10⟩
    · intro i s hi h0
      rw [hz s (List.mem_of_getElem? hi) h0]
      exact Nat.zero_le _
    · have := hv.fits
      unfold Image.FileFits at this ⊢
      refine Nat.lt_of_le_of_lt ?_ this
      unfold rawOffset
      rw [hsb]
      exact Nat.add_le_add_right (hst _).2 _
  have hlt : (p.stripped k).tableEnd strip < 4294967296 := by
    have h1 := rawOffset_ge p.nt.fileAlign (p.dataStart strip (p.savesBound sb)) p.secs p.secs.length
    have h2 := tableEnd_le_dataStart fa strip (p.savesBound sb)
    have h3 := hv.fits
    have h4 := (hst true).1
    unfold Image.FileFits at h3
    omega
  have hptr : ∀ x, (p.stripped k).ptrFromRva x .raw true = p.ptrFromRva x .raw true := fun _ => rfl
  obtain ⟨q', out, hq'⟩ := (C18_completes_iff (p.stripped k) strip true sb hsz fa (by show k ≠ 0; omega)
    ⟨hl, fun s hs => by have := hv.sizes s hs; omega⟩ hlt).mpr ⟨fun h hB => by
      obtain ⟨b, o, a1, a2, a3⟩ := hb h ((stripped_hasBound h2 h3).mp hB)
      exact ⟨b, o, a1, a2, fun h => a3 (by rw [← hsb]; exact h)⟩, fun _ s hs => by
      have a1 := hroom s hs
      have a2 := (hst (p.savesBound sb)).2
      rw [hsb]
      exact Nat.le_trans (Nat.mod_le _ _) (Nat.le_trans a2 a1), fun s hs => by
      have := (hv.sizes s hs).1
      omega⟩
  obtain ⟨r, l1, l2, l3⟩ := C68_saved_directories _ q' strip true sb strict dbg out pre hp hd hsave (by show k ≠ 0; omega) hq'
  obtain ⟨r', k1, -, k3, -, k5, -⟩ := C19_save_load _ q' strip true sb strict dbg out pre hp hd hsave hq'
  have hrr : r' = r := Except.ok.inj (k1.symm.trans l1)
  subst hrr
  obtain ⟨-, e1, -⟩ := rebuildPe_ok hsz fa hq'
  refine ⟨_, q', out, r', g1, hq', l1, ?_, ?_, k5, ?_, ?_, ?_⟩
  · rw [k3]; show q'.nt.numRva = _; rw [e1]; rfl
  · show r'.nt.entry = _; rw [k3]; show q'.nt.entry = _; rw [e1]; rfl
  · exact ⟨fun v h => l2.exports v (g7.exports v h), fun v h => l2.imports v (g7.imports v h), fun v h => l2.resources v (g7.resources v h),
      fun v h => l2.exceptions v (g7.exceptions v h), fun b v h => l2.relocations b v (g7.relocations b v h),
      fun v h => l2.config v (g7.config v h), fun v h => l2.tls v (g7.tls v h)⟩
  · exact fun h v hv => l3 (by rw [hsb]; exact h) v ((g9 v).mp hv)
  · intro hsv hB h0 hin v hcut
    have hB' := (stripped_hasBound h2 h3).mpr hB
    have hd' : (p.stripped k).nt.dirs[dirBoundImport]? = some p.boundDir := by
      show p.nt.dirs[dirBoundImport]? = _
      exact boundDir_get ho
    refine ⟨getBound_cut ho hB.1 (boundDir_get ho) hB.2 h0 hin (by omega) hcut ho hB.1 (boundDir_get ho) hB.2 rfl hin hl rfl, ?_⟩
    have hlen : (p.hdrData.take (p.boundDir.1 + p.boundDir.2)).length = p.boundDir.1 + p.boundDir.2 := by rw [List.length_take]; omega
    have hcut' : (p.stripped k).cutBound.getBound = .ok v :=
      getBound_cut ho hB.1 (boundDir_get ho) hB.2 h0 hin (by omega) hcut (r := (p.stripped k).cutBound) ⟨ho.slots, Nat.le_trans h2 ho.count⟩ hB'.1 hd' hB.2
        rfl (by show _ ≤ (p.hdrData.take (p.boundDir.1 + p.boundDir.2)).length; omega)
        (by show (p.hdrData.take (p.boundDir.1 + p.boundDir.2)).length < _; omega)
        (by
          show slice (p.hdrData.take (p.boundDir.1 + p.boundDir.2)) p.boundDir.1 p.boundDir.2 = _
          unfold slice
          rw [List.drop_take, Nat.add_sub_cancel_left, List.take_take, Nat.min_self])
    obtain ⟨-, r2, n1, n2⟩ := C98_kept_partial (p.stripped k) q' strip true sb strict dbg out pre v hp hd hsave hq' hB' (by rw [hsb]; exact hsv) h0 hin hl
      (.inl rfl) hcut'
    have : r2 = r' := Except.ok.inj (n1.symm.trans l1)
    rw [← this]
    exact n2

/-- The hypotheses are met by an image with an export directory, 2 directory entries and a stub. -/
example : ∃ q q' out r, savedImage.stripAll 0 true = .ok q ∧ q.nt.numRva = 1 ∧ q.stub = [] ∧ q.rebuildPe false true true = .ok (q', out) ∧
    load .pe32 true false true zeroDirs out = .ok r ∧ r.nt.numRva = 1 ∧ ReadsAs savedImage.noHdr r := by
  obtain ⟨q, q', out, r, h1, h2, h3, h4, -, -, h7, -⟩ := C97_file_partial savedImage false true true true true 0 zeroDirs (by decide) (by decide)
    savedImage_saveable (fun _ h => absurd h (by decide)) (by decide) ⟨0, by decide, by decide, by decide⟩ (by decide +kernel) (by decide +kernel)
  have hn : q.nt.numRva = 1 ∧ q.stub = [] := by
    obtain ⟨q2, e1, e2⟩ := exists_of_okAnd (x := savedImage.stripAll 0 true) (f := fun q => decide (q.nt.numRva = 1 ∧ q.stub = [])) (by decide +kernel)
    rw [e1] at h1
    cases h1
    exact of_decide_eq_true e2
  exact ⟨q, q', out, r, h1, hn.1, hn.2, h2, h3, h4.trans hn.1, h7⟩

/-- And by an image with bound imports in the headers, which are read from the file of the stripped image. -/
example : ∃ q q' out r, (linkedImage 19).stripAll 0 true = .ok q ∧ q.rebuildPe false true true = .ok (q', out) ∧
    load .pe32 true false true zeroDirs out = .ok r ∧ r.getBound = .ok [⟨[65, 66], 7, []⟩] := by
  obtain ⟨q, q', out, r, h1, h2, h3, -, -, -, -, -, h9⟩ := C97_file_partial (linkedImage 19) false true true true true 0 zeroDirs (by decide) (by decide)
    linkedImage_saveable (fun _ _ => ⟨_, 32, rfl, by decide, fun _ => by decide⟩) (by decide) ⟨11, by decide, by decide, by decide⟩ (by decide +kernel)
    (by decide +kernel)
  exact ⟨q, q', out, r, h1, h2, h3, (h9 (by decide) (by decide) (by decide) (by decide) _ (by decide +kernel)).2⟩

/-- C97 fails when no directory is left: the test for existence computes `NumberOfRvaAndSizes - 1` and takes all 16 slots for entries.
    With the default arguments `strip_data_directories` makes a directory appear that was not there before. -/
theorem C97_none_left : ∃ p q : Image, p.nt.DirsOk ∧ p.nt.numRva = 2 ∧ p.stripAll 1 true = .ok q ∧ q.nt.numRva = 0 ∧
    p.hasDir 5 = .ok false ∧ q.hasDir 5 = .ok true :=
  ⟨{ kind := .pe32, dos := [], lfanew := 0, nt := { numRva := 2, dirs := List.replicate 5 (0, 0) ++ [(0x1000, 8)] ++ List.replicate 10 (0, 0) } },
   { kind := .pe32, dos := [], lfanew := 0, nt := { numRva := 0, dirs := List.replicate 5 (0, 0) ++ [(0x1000, 8)] ++ List.replicate 10 (0, 0) } },
   ⟨rfl, by decide⟩, rfl, by decide, rfl, by decide, by decide⟩

end PE
