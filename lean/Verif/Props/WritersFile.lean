/-
C94: memory safety of saving.
-/
import Verif.Props.WritersTls
import Verif.Model.Rebuild

namespace PE

theorem dirAt_safe {h : NtHdr} (hs : h.dirs.length = 16) {id : Nat} (hid : id < 16) : NoUB (h.dirAt id) := by
  unfold NtHdr.dirAt
  rw [List.getElem?_eq_getElem (by omega)]
  exact NoUB.ok _

theorem exists_safe {h : NtHdr} (hs : h.dirs.length = 16) {id : Nat} (hid : id < 16) : NoUB (h.directoryExists id) := by
  unfold NtHdr.directoryExists
  split
  · exact NoUB.bind (dirAt_safe hs hid) fun _ _ => NoUB.ok _
  · exact NoUB.ok _

theorem getRva_safe {h : NtHdr} (hs : h.dirs.length = 16) {id : Nat} (hid : id < 16) : NoUB (h.getDirRva id) := by
  unfold NtHdr.getDirRva
  split
  · exact NoUB.throwE _
  · exact NoUB.bind (dirAt_safe hs hid) fun _ _ => NoUB.ok _

theorem getSize_safe {h : NtHdr} (hs : h.dirs.length = 16) {id : Nat} (hid : id < 16) : NoUB (h.getDirSize id) := by
  unfold NtHdr.getDirSize
  split
  · exact NoUB.throwE _
  · exact NoUB.bind (dirAt_safe hs hid) fun _ _ => NoUB.ok _

theorem placeSecs_find_first {fa sa rva : Nat} : ∀ (l : List Sec) (ptr : Nat) (t : Sec), (placeSecs fa ptr l).find? (fun s => s.containsRva sa rva) = some t →
    ∃ s, l.find? (fun s => s.containsRva sa rva) = some s ∧ t.data = s.data ∧ t.va = s.va
  | [], _, _, h => by cases h
  | s :: l, ptr, t, h => by
    unfold placeSecs at h
    split at h
    · by_cases hc : s.containsRva sa rva = true
      · have e := List.find?_cons_of_pos (p := fun s : Sec => s.containsRva sa rva) (l := placeSecs fa (w64 (ptr + s.alignedRS fa)) l)
          (a := { s with rawPtr := w32 ptr }) hc
        rw [e] at h
        cases h
        exact ⟨s, List.find?_cons_of_pos (p := fun s : Sec => s.containsRva sa rva) hc, rfl, rfl⟩
      · have e := List.find?_cons_of_neg (p := fun s : Sec => s.containsRva sa rva) (l := placeSecs fa (w64 (ptr + s.alignedRS fa)) l)
          (a := { s with rawPtr := w32 ptr }) hc
        rw [e] at h
        obtain ⟨u, h1, h2⟩ := placeSecs_find_first l _ t h
        exact ⟨u, by rw [List.find?_cons_of_neg (p := fun s : Sec => s.containsRva sa rva) hc]; exact h1, h2⟩
    · by_cases hc : s.containsRva sa rva = true
      · rw [List.find?_cons_of_pos (p := fun s : Sec => s.containsRva sa rva) hc] at h
        cases h
        exact ⟨s, List.find?_cons_of_pos (p := fun s : Sec => s.containsRva sa rva) hc, rfl, rfl⟩
      · rw [List.find?_cons_of_neg (p := fun s : Sec => s.containsRva sa rva) hc] at h
        obtain ⟨u, h1, h2⟩ := placeSecs_find_first l _ t h
        exact ⟨u, by rw [List.find?_cons_of_neg (p := fun s : Sec => s.containsRva sa rva) hc]; exact h1, h2⟩

theorem placeSecs_room {fa : Nat} : ∀ (l : List Sec) (ptr : Nat), (∀ s ∈ l, s.rawSize ≤ s.data.length + 1) →
    ∀ t ∈ placeSecs fa ptr l, t.rawSize ≤ t.data.length + 1
  | [], _, _, t, ht => by cases ht
  | s :: l, ptr, h, t, ht => by
    have h0 := h s (List.mem_cons_self ..)
    have h1 : ∀ s ∈ l, s.rawSize ≤ s.data.length + 1 := fun u hu => h u (List.mem_cons_of_mem _ hu)
    unfold placeSecs at ht
    split at ht <;> rcases List.mem_cons.mp ht with rfl | ht
    · exact h0
    · exact placeSecs_room l _ h1 t ht
    · exact h0
    · exact placeSecs_room l _ h1 t ht

theorem writeSecs_noUB : ∀ (l : List Sec) (pos : Nat), (∀ s ∈ l, s.rawSize ≤ s.data.length + 1) → NoUB (writeSecs pos l)
  | [], _, _ => NoUB.ok _
  | s :: l, pos, h => by
    have h0 := h s (List.mem_cons_self ..)
    unfold writeSecs
    rw [readN_ok (by simp only [List.length_append, List.length_singleton]; omega), ok_bind]
    exact NoUB.bind (writeSecs_noUB l _ fun u hu => h u (List.mem_cons_of_mem _ hu)) fun _ _ => NoUB.ok _

/-- What the rebuilt image has in common with the image. -/
structure Resaved (p q : Image) : Prop where
  slots : q.nt.dirs.length = 16
  num : q.nt.numRva = p.nt.numRva
  sa : q.nt.secAlign = p.nt.secAlign
  hdr : q.hdrData = p.hdrData
  secs : ∃ fa ptr, q.secs = placeSecs fa ptr p.secs

theorem updateImageSize_nt (p : Image) : ∃ n, p.updateImageSize = { p with nt := { p.nt with sizeImage := n } } := by
  unfold Image.updateImageSize
  split
  · exact ⟨_, rfl⟩
  · exact ⟨_, rfl⟩

theorem rebuildHeaders_safe {p : Image} (hs : p.nt.dirs.length = 16) (strip chg sb : Bool) :
    SafeTo (p.rebuildHeaders strip chg sb) fun r => Resaved p r.1 ∧ ∃ w, p.boundWanted sb = .ok w ∧
      (w = false → r.1.nt.dirs = p.nt.dirs) ∧ ((r.1.nt.dirs[dirBoundImport]?).map Prod.snd = (p.nt.dirs[dirBoundImport]?).map Prod.snd) := by
  have hx : (p.stripDos strip).nt.dirs = p.nt.dirs ∧ (p.stripDos strip).nt.numRva = p.nt.numRva ∧ (p.stripDos strip).nt.secAlign = p.nt.secAlign ∧
      (p.stripDos strip).hdrData = p.hdrData ∧ (p.stripDos strip).secs = p.secs ∧ (p.stripDos strip).boundWanted sb = p.boundWanted sb := by
    cases strip <;> exact ⟨rfl, rfl, rfl, rfl, rfl, rfl⟩
  obtain ⟨x1, x2, x3, x4, x5, x6⟩ := hx
  unfold Image.rebuildHeaders
  dsimp only
  rw [x6]
  have hw : NoUB (p.boundWanted sb) := by
    unfold Image.boundWanted
    split
    · exact exists_safe hs (by decide)
    · exact NoUB.ok _
  refine SafeTo.bind (SafeTo.noUB hw) fun w hw => ?_
  have hpl : SafeTo ((p.stripDos strip).nt.placeBound w ((p.stripDos strip).tablePtr strip)) fun r =>
      r.1.dirs.length = 16 ∧ r.1.numRva = p.nt.numRva ∧ r.1.secAlign = p.nt.secAlign ∧ (w = false → r.1.dirs = p.nt.dirs) ∧
      (r.1.dirs[dirBoundImport]?).map Prod.snd = (p.nt.dirs[dirBoundImport]?).map Prod.snd := by
    unfold NtHdr.placeBound
    split
    · next hwt =>
      have hset : SafeTo ((p.stripDos strip).nt.setDirRva dirBoundImport (w32 ((p.stripDos strip).tablePtr strip))) fun h =>
          h.dirs.length = 16 ∧ h.numRva = p.nt.numRva ∧ h.secAlign = p.nt.secAlign ∧
          (h.dirs[dirBoundImport]?).map Prod.snd = (p.nt.dirs[dirBoundImport]?).map Prod.snd := by
        unfold NtHdr.setDirRva
        split
        · exact SafeTo.throwE _
        · unfold NtHdr.dirAt NtHdr.dirSet
          rw [x1, List.getElem?_eq_getElem (show dirBoundImport < p.nt.dirs.length by rw [hs]; decide)]
          dsimp only
          rw [ok_bind, if_pos (by rw [hs]; decide)]
          refine SafeTo.ok ⟨by show (p.nt.dirs.set _ _).length = 16; rw [List.length_set]; exact hs, x2, x3, ?_⟩
          show ((p.nt.dirs.set _ _)[dirBoundImport]?).map _ = _
          rw [List.getElem?_set_self (by rw [hs]; decide)]
          rfl
      refine SafeTo.bind hset fun h hh => SafeTo.bind (SafeTo.noUB (getSize_safe hh.1 (by decide))) fun _ _ => SafeTo.ok ?_
      exact ⟨hh.1, hh.2.1, hh.2.2.1, (fun h => by rw [h] at hwt; cases hwt), hh.2.2.2⟩
    · exact SafeTo.ok ⟨by rw [x1]; exact hs, x2, x3, fun _ => x1, by rw [x1]⟩
  refine SafeTo.bind hpl fun r hr => ?_
  obtain ⟨nt, ptr⟩ := r
  obtain ⟨r1, r2, r3, r4, r5⟩ := hr
  dsimp only at r1 r2 r3 r4 r5 ⊢
  unfold throwIf
  split
  · exact SafeTo.throwE _
  · rw [ok_bind]
    refine SafeTo.ok ?_
    have hrs : ∀ n, (nt.resizeHeaders chg n).dirs = nt.dirs ∧ (nt.resizeHeaders chg n).numRva = nt.numRva ∧
        (nt.resizeHeaders chg n).secAlign = nt.secAlign := by
      intro n; cases chg <;> exact ⟨rfl, rfl, rfl⟩
    obtain ⟨y1, y2, y3⟩ := hrs (alignUp64 ptr nt.fileAlign)
    generalize nt.resizeHeaders chg (alignUp64 ptr nt.fileAlign) = h2 at *
    unfold Image.finishHeaders
    obtain ⟨n, en⟩ := updateImageSize_nt { p.stripDos strip with nt := { h2 with numSections := w16 (p.stripDos strip).secs.length } }
    dsimp only
    rw [en]
    dsimp only
    refine ⟨⟨by rw [y1]; exact r1, y2.trans r2, y3.trans r3, x4, _, _, by rw [x5]⟩, w, hw, fun h => by rw [y1]; exact r4 h, by rw [y1]; exact r5⟩

/-- C94: saving. The header of a section must not claim more raw data than it has (it may claim the terminator of the string), and
    the headers must have room for the directories; both are necessary, see `C18_added_section_overread` and `C18_many_dirs_overread`. -/
theorem C94_save (p : Image) (hs : p.nt.dirs.length = 16) (hn : p.nt.numRva ≤ 16) (hsecs : ∀ s ∈ p.secs, s.rawSize ≤ s.data.length + 1)
    (hbound : ∀ d, p.nt.dirs[dirBoundImport]? = some d → d.1 ≠ 0 → d.2 ≠ 0) (strip chg sb : Bool) (u : UB) :
    p.rebuildPe strip chg sb ≠ ubE u := by
  refine (show NoUB (p.rebuildPe strip chg sb) from ?_) u
  have hw : ∀ b, NoUB (p.boundWanted b) := by
    intro b
    unfold Image.boundWanted
    split
    · exact exists_safe hs (by decide)
    · exact NoUB.ok _
  obtain ⟨d11, hd11⟩ : ∃ d, p.nt.dirs[dirBoundImport]? = some d := ⟨_, List.getElem?_eq_getElem (show dirBoundImport < _ by rw [hs]; decide)⟩
  unfold Image.rebuildPe
  have hcheck : SafeTo (p.checkBound sb) fun _ => ∀ w, p.boundWanted sb = .ok w → w = true → ∃ rva n size, p.nt.getDirRva dirBoundImport = .ok rva ∧
      p.dataLenFrom rva rva .raw true = .ok n ∧ p.nt.getDirSize dirBoundImport = .ok size ∧ size ≤ n := by
    unfold Image.checkBound
    refine SafeTo.bind (SafeTo.noUB (hw sb)) fun w hw => ?_
    split
    · refine SafeTo.bind (SafeTo.noUB (getRva_safe hs (by decide))) fun rva h1 => SafeTo.bind (SafeTo.noUB (dataLenFrom_safe _ _ _ _ _)) fun n h2 =>
        SafeTo.bind (SafeTo.noUB (getSize_safe hs (by decide))) fun size h3 => ?_
      unfold throwIf
      split
      · exact SafeTo.throwE _
      · exact SafeTo.ok fun _ _ _ => ⟨rva, n, size, h1, h2, h3, by omega⟩
    · next hf => exact SafeTo.ok fun w' hw' ht => by rw [hw] at hw'; cases hw'; exact absurd ht hf
  refine NoUB.bind hcheck.1 fun x hx => ?_
  have hck := hcheck.2 x hx
  have hbr : SafeTo p.boundRva fun rva => ∀ r, p.hasDir dirBoundImport = .ok true → p.nt.getDirRva dirBoundImport = .ok r → rva = r := by
    unfold Image.boundRva
    refine SafeTo.bind (SafeTo.noUB (exists_safe hs (by decide))) fun b hb => ?_
    split
    · refine (SafeTo.noUB (getRva_safe hs (by decide))).imp fun r hr r' _ hr' => ?_
      rw [hr] at hr'; exact Except.ok.inj hr'
    · next hf =>
      refine SafeTo.ok fun r h _ => ?_
      rw [h] at hb
      cases hb
      exact absurd rfl hf
  refine NoUB.bind hbr.1 fun rva hrva => ?_
  have hrv := hbr.2 rva hrva
  dsimp only
  generalize hsv : (sb && !decide (rva ≠ 0 ∧ rva > p.nt.sizeHeaders)) = save
  have hhd := rebuildHeaders_safe hs strip chg save
  refine NoUB.bind hhd.1 fun r hr => ?_
  obtain ⟨q, lf⟩ := r
  obtain ⟨hq, w, hwanted, hsame, hsize⟩ := hhd.2 _ hr
  dsimp only at hq hsame hsize ⊢
  have hhb : NoUB q.headerBytes := by
    unfold Image.headerBytes
    rw [if_neg (by rw [hq.num]; omega)]
    exact NoUB.ok _
  refine NoUB.bind hhb fun hdr _ => ?_
  obtain ⟨fa, ptr, hqs⟩ := hq.secs
  have hsecs' : ∀ s ∈ q.secs, s.rawSize ≤ s.data.length + 1 := by rw [hqs]; exact placeSecs_room _ _ hsecs
  have hbb : NoUB (q.boundBytes save rva) := by
    unfold Image.boundBytes
    have hqw : NoUB (q.boundWanted save) := by
      unfold Image.boundWanted
      split
      · exact exists_safe hq.slots (by decide)
      · exact NoUB.ok _
    refine NoUB.bind hqw fun w' hw' => ?_
    split
    · next ht =>
      have hst : save = true := by
        cases save
        · unfold Image.boundWanted at hw'
          rw [if_neg (by decide)] at hw'
          cases hw'; cases ht
        · rfl
      have hsb : sb = true := by rw [hst] at hsv; exact ((Bool.and_eq_true _ _).mp hsv).1
      subst hst hsb
      have hwt : w = true := by
        cases w
        · unfold Image.boundWanted Image.hasDir NtHdr.directoryExists NtHdr.dirAt at hw' hwanted
          rw [hq.num, hsame rfl, hwanted] at hw'
          cases hw'; cases ht
        · rfl
      subst hwt
      obtain ⟨r0, n, size, h1, h2, h3, h4⟩ := hck true hwanted rfl
      have he : p.hasDir dirBoundImport = .ok true := by
        unfold Image.boundWanted at hwanted
        rw [if_pos rfl] at hwanted
        exact hwanted
      have hrr := hrv r0 he h1
      subst hrr
      -- the directory is not empty
      have hnum : dirBoundImport < p.nt.numRva := by
        unfold NtHdr.getDirRva at h1
        split at h1
        · cases h1
        · omega
      have hsz : size = d11.2 ∧ rva = d11.1 := by
        unfold NtHdr.getDirSize NtHdr.dirAt at h3
        unfold NtHdr.getDirRva NtHdr.dirAt at h1
        rw [if_neg (by omega), hd11] at h1 h3
        exact ⟨(Except.ok.inj h3).symm, (Except.ok.inj h1).symm⟩
      have hne : d11.1 ≠ 0 := by
        unfold Image.hasDir NtHdr.directoryExists NtHdr.dirAt at he
        rw [hd11] at he
        split at he
        · have := Except.ok.inj he
          simpa using this
        · cases he
      have hsz0 := hbound d11 hd11 hne
      have hqsz : ∀ m, q.nt.getDirSize dirBoundImport = .ok m → m = size := by
        intro m hm
        unfold NtHdr.getDirSize NtHdr.dirAt at hm
        rw [hq.num, if_neg (by omega)] at hm
        rw [hd11] at hsize
        cases hd : q.nt.dirs[dirBoundImport]? with
        | none => rw [hd] at hsize; cases hsize
        | some d =>
          rw [hd] at hsize hm
          have : d.2 = d11.2 := by simpa using hsize
          have e2 : d.2 = m := Except.ok.inj hm
          omega
      have hp : SafeTo (q.ptrFromRva rva .raw true) fun bo => bo.2 + size ≤ bo.1.length := by
        unfold Image.ptrFromRva
        unfold Image.dataLenFrom at h2
        rw [hq.hdr]
        by_cases hh : rva < p.hdrData.length
        · rw [if_pos ⟨rfl, hh⟩]
          rw [if_pos ⟨rfl, hh, hh⟩] at h2
          have hle := Nat.mod_le (p.hdrData.length - rva) 4294967296
          have : n ≤ p.hdrData.length - rva := by rw [← Except.ok.inj h2]; exact hle
          exact SafeTo.ok (show rva + size ≤ p.hdrData.length by omega)
        · rw [if_neg (by rintro ⟨_, h⟩; exact hh h)]
          rw [if_neg (by rintro ⟨_, h, _⟩; exact hh h)] at h2
          obtain ⟨s, hsec, h2⟩ := bind_ok_iff.mp h2
          split at h2
          · cases h2
          · next hva =>
            have hle := Nat.mod_le (s.viewLen .raw p.nt.secAlign + s.va - rva) 4294967296
            have hn' : n ≤ s.data.length + s.va - rva := by rw [← Except.ok.inj h2]; exact hle
            unfold Image.sectionFromRva at hsec ⊢
            split
            · next t ht =>
              rw [hqs, hq.sa] at ht
              obtain ⟨s', hs', e1, e2⟩ := placeSecs_find_first _ _ _ ht
              rw [hs'] at hsec
              cases hsec
              rw [ok_bind]
              refine SafeTo.ok ?_
              show rva - t.va + size ≤ t.data.length
              rw [e1, e2]
              omega
            · exact SafeTo.throwE _
      refine NoUB.bind hp.1 fun bo hbo => ?_
      have hroom := hp.2 bo hbo
      obtain ⟨b, o⟩ := bo
      refine NoUB.bind (getSize_safe hq.slots (by decide)) fun m hm => ?_
      rw [hqsz m hm]
      dsimp only at hroom ⊢
      rw [readN_ok hroom]
      exact NoUB.ok _
    · exact NoUB.ok _
  refine NoUB.bind hbb fun bound _ => NoUB.bind (writeSecs_noUB _ _ hsecs') fun _ _ => NoUB.ok _

end PE
