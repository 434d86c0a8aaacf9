/-
Invariants of the operations that change an image, also when they throw.
-/
import Verif.Spec.History
import Verif.Lemmas.ResourcesSafe
namespace PE

/-- The operation keeps `I`, whether it returns or not. -/
def Inv {α : Type} (I : Image → Prop) (m : IM α) : Prop := ∀ p, I p → I (m p).2

/-- A change of the headers by a statement of an operation. -/
structure NtStep (k : Kind) (a b : NtHdr) : Prop where
  same : SameFixed b a
  num : b.numRva = a.numRva
  rvas : (∀ d ∈ a.dirs, d.1 < 4294967296) → ∀ d ∈ b.dirs, d.1 < 4294967296
  base : a.imageBase < 256 ^ k.ptr → b.imageBase < 256 ^ k.ptr
  sections : b.numSections = a.numSections

/-- The sections are the same but for raw data, sizes and places in the file. -/
structure SecsStep (l l' : List Sec) : Prop where
  len : l'.length = l.length
  each : ∀ (i : Nat) (s : Sec), l[i]? = some s → ∃ t, l'[i]? = some t ∧ SameSec t s

/-- A property that no single statement of the operations can make false. -/
structure Stable (I : Image → Prop) : Prop where
  secs : ∀ p l, SecsStep p.secs l → I p → I { p with secs := l }
  hdr : ∀ p h, h.length = p.hdrData.length → I p → I { p with hdrData := h }
  nt : ∀ p b, NtStep p.kind p.nt b → I p → I { p with nt := b }
  stub : ∀ p b, I p → I { p with stub := b }
  count : ∀ p, I p → I { p with nt := { p.nt with numSections := w16 p.secs.length } }
  add : ∀ p s, p.secs.length < 96 → I p →
    I { p with secs := p.secs ++ [s], nt := { p.nt with numSections := w16 (p.secs.length + 1) } }

theorem SameSec.refl (s : Sec) : SameSec s s := ⟨rfl, rfl, rfl, rfl, rfl, rfl, rfl⟩
theorem SameSec.trans {a b c : Sec} (h : SameSec a b) (g : SameSec b c) : SameSec a c :=
  ⟨h.name.trans g.name, h.va.trans g.va, h.relPtr.trans g.relPtr, h.linePtr.trans g.linePtr, h.nReloc.trans g.nReloc,
    h.nLine.trans g.nLine, h.chars.trans g.chars⟩
theorem SameSec.symm {a b : Sec} (h : SameSec a b) : SameSec b a :=
  ⟨h.name.symm, h.va.symm, h.relPtr.symm, h.linePtr.symm, h.nReloc.symm, h.nLine.symm, h.chars.symm⟩

theorem SameFixed.refl (a : NtHdr) : SameFixed a a :=
  ⟨rfl, rfl, rfl, rfl, rfl, rfl, rfl, rfl, rfl, rfl, rfl, rfl, rfl, rfl, rfl, rfl⟩
theorem SameFixed.trans {a b c : NtHdr} (h : SameFixed a b) (g : SameFixed b c) : SameFixed a c :=
  ⟨h.signature.trans g.signature, h.magic.trans g.magic, h.secAlign.trans g.secAlign, h.ptrSymTab.trans g.ptrSymTab,
    h.numSyms.trans g.numSyms, h.majorLinker.trans g.majorLinker, h.minorLinker.trans g.minorLinker, h.sizeCode.trans g.sizeCode,
    h.sizeInitData.trans g.sizeInitData, h.sizeUninitData.trans g.sizeUninitData, h.baseOfData.trans g.baseOfData,
    h.majorImage.trans g.majorImage, h.minorImage.trans g.minorImage, h.win32Version.trans g.win32Version,
    h.loaderFlags.trans g.loaderFlags, h.slots.trans g.slots⟩

theorem SecsStep.refl (l : List Sec) : SecsStep l l := ⟨rfl, fun _ s h => ⟨s, h, .refl s⟩⟩

theorem SecsStep.trans {a b c : List Sec} (h : SecsStep a b) (g : SecsStep b c) : SecsStep a c := by
  refine ⟨g.len.trans h.len, fun i s hs => ?_⟩
  obtain ⟨t, ht, hst⟩ := h.each i s hs
  obtain ⟨u, hu, htu⟩ := g.each i t ht
  exact ⟨u, hu, htu.trans hst⟩

theorem SecsStep.set {l : List Sec} {i : Nat} {s t : Sec} (hs : l[i]? = some s) (ht : SameSec t s) : SecsStep l (l.set i t) := by
  have hi := (List.getElem?_eq_some_iff.mp hs).1
  refine ⟨List.length_set, fun j u hu => ?_⟩
  by_cases hj : i = j
  · subst hj
    rw [hs] at hu
    obtain rfl := Option.some.inj hu
    exact ⟨t, by rw [List.getElem?_set, if_pos rfl, if_pos hi], ht⟩
  · exact ⟨u, by rw [List.getElem?_set, if_neg hj]; exact hu, .refl u⟩

theorem NtStep.refl (k : Kind) (a : NtHdr) : NtStep k a a := ⟨.refl a, rfl, id, id, rfl⟩

theorem NtStep.trans {k : Kind} {a b c : NtHdr} (h : NtStep k a b) (g : NtStep k b c) : NtStep k a c :=
  ⟨g.same.trans h.same, g.num.trans h.num, fun x => g.rvas (h.rvas x), fun x => g.base (h.base x), g.sections.trans h.sections⟩

/-! ### Building blocks -/

section
variable {I : Image → Prop}

theorem inv_bind {α β : Type} {m : IM α} {g : α → IM β} (hm : Inv I m) (hg : ∀ a, Inv I (g a)) : Inv I (m >>= g) := by
  intro p hp
  have h := hm p hp
  show I (IM.andThen m g p).2
  unfold IM.andThen
  rcases hq : m p with ⟨a | a, q⟩
  · rw [hq] at h; exact h
  · rw [hq] at h; exact hg a q h

theorem inv_pure {α : Type} (a : α) : Inv I (pure a : IM α) := fun _ h => h
theorem inv_lift {α : Type} (r : Res α) : Inv I (IM.lift r) := fun _ h => h
theorem inv_image : Inv I IM.image := fun _ h => h
theorem inv_modify {f : Image → Image} (h : ∀ p, I p → I (f p)) : Inv I (IM.modify f) := h

theorem inv_quiet {α : Type} {m : IM α} (h : Inv I m) : Inv I m.quiet := by
  intro p hp
  have hq := h p hp
  unfold IM.quiet
  rcases hm : m p with ⟨(_ | u) | a, q⟩ <;> rw [hm] at hq <;> exact hq

theorem inv_drop {α : Type} {m : IM α} (h : Inv I m) : Inv I m.drop := inv_bind h fun _ => inv_pure _

/-- The section that was read is still the one with position `i`. -/
def HasSec (i : Nat) (s : Sec) (p : Image) : Prop := ∃ t, p.secs[i]? = some t ∧ SameSec t s

theorem inv_sec {β : Type} {i : Nat} {g : Sec → IM β} (hg : ∀ s, Inv (fun p => I p ∧ HasSec i s p) (g s)) :
    Inv I (IM.sec i >>= g) := by
  intro p hp
  show I (IM.andThen (IM.sec i) g p).2
  unfold IM.andThen IM.sec
  rcases hs : p.secs[i]? with _ | s
  · exact hp
  · exact (hg s p ⟨hp, s, hs, .refl s⟩).1

theorem Stable.hasSec (hI : Stable I) (i : Nat) (s : Sec) : Stable (fun p => I p ∧ HasSec i s p) where
  secs p l h hp := by
    obtain ⟨hp, t, ht, hts⟩ := hp
    obtain ⟨u, hu, hut⟩ := h.each i t ht
    exact ⟨hI.secs p l h hp, u, hu, hut.trans hts⟩
  hdr p h hh hp := ⟨hI.hdr p h hh hp.1, hp.2⟩
  nt p b h hp := ⟨hI.nt p b h hp.1, hp.2⟩
  stub p b hp := ⟨hI.stub p b hp.1, hp.2⟩
  count p hp := ⟨hI.count p hp.1, hp.2⟩
  add p s' hl hp := by
    obtain ⟨hp, t, ht, hts⟩ := hp
    refine ⟨hI.add p s' hl hp, t, ?_, hts⟩
    rw [List.getElem?_append_left (List.getElem?_eq_some_iff.mp ht).1]
    exact ht

theorem inv_setSec (hI : Stable I) {i : Nat} {s t : Sec} (h : SameSec t s) :
    Inv (fun p => I p ∧ HasSec i s p) (IM.setSec i t) := by
  intro p hp
  obtain ⟨u, hu, hus⟩ := hp.2
  exact (hI.hasSec i s).secs p _ (.set hu (h.trans hus.symm)) hp

theorem inv_onData (hI : Stable I) (i : Nat) (f : Bytes → Res Bytes) : Inv I (IM.onData i f) := by
  unfold IM.onData
  exact inv_sec fun s => inv_bind (inv_lift _) fun d => inv_setSec hI ⟨rfl, rfl, rfl, rfl, rfl, rfl, rfl⟩

theorem inv_nt (hI : Stable I) {f : Image → NtHdr} (h : ∀ p, NtStep p.kind p.nt (f p)) :
    Inv I (IM.modify fun p => { p with nt := f p }) := fun p hp => hI.nt p _ (h p) hp

theorem updateImageSize_step (p : Image) : ∃ b, p.updateImageSize = { p with nt := b } ∧ NtStep p.kind p.nt b := by
  unfold Image.updateImageSize
  split
  · exact ⟨_, rfl, ⟨⟨rfl, rfl, rfl, rfl, rfl, rfl, rfl, rfl, rfl, rfl, rfl, rfl, rfl, rfl, rfl, rfl⟩, rfl, id, id, rfl⟩⟩
  · exact ⟨_, rfl, ⟨⟨rfl, rfl, rfl, rfl, rfl, rfl, rfl, rfl, rfl, rfl, rfl, rfl, rfl, rfl, rfl, rfl⟩, rfl, id, id, rfl⟩⟩

theorem Stable.size (hI : Stable I) (p : Image) (h : I p) : I p.updateImageSize := by
  obtain ⟨b, hb, hs⟩ := updateImageSize_step p
  rw [hb]
  exact hI.nt p b hs h

/-! ### Editing -/

theorem inv_setFileAlignment (hI : Stable I) (a : Nat) : Inv I (setFileAlignmentM a) :=
  inv_bind (inv_lift _) fun _ => inv_bind (inv_lift _) fun _ => inv_bind inv_image fun _ => inv_bind (inv_lift _) fun _ =>
    inv_nt hI fun _ => ⟨⟨rfl, rfl, rfl, rfl, rfl, rfl, rfl, rfl, rfl, rfl, rfl, rfl, rfl, rfl, rfl, rfl⟩, rfl, id, id, rfl⟩

theorem inv_realignSection (hI : Stable I) (i : Nat) : Inv I (realignSectionM i) := by
  refine inv_bind inv_image fun p => inv_bind (inv_lift _) fun _ => inv_sec fun s => ?_
  unfold realignEndM
  split
  · exact inv_bind (inv_setSec hI ⟨rfl, rfl, rfl, rfl, rfl, rfl, rfl⟩) fun _ => inv_onData (hI.hasSec i s) _ _
  · exact inv_bind (inv_setSec hI ⟨rfl, rfl, rfl, rfl, rfl, rfl, rfl⟩) fun _ => inv_onData (hI.hasSec i s) _ _

theorem inv_realignFrom (hI : Stable I) (n : Nat) : ∀ i, Inv I (realignFromM i n) := by
  induction n with
  | zero => exact fun i => inv_pure ()
  | succ n ih => exact fun i => inv_bind (inv_realignSection hI i) fun _ => ih (i + 1)

theorem inv_realignFile (hI : Stable I) (a : Nat) : Inv I (realignFileM a) :=
  inv_bind (inv_setFileAlignment hI a) fun _ => inv_bind inv_image fun _ => inv_realignFrom hI _ _

theorem inv_setVirtualSize (hI : Stable I) (i n : Nat) : Inv I (setVirtualSizeM i n) := by
  refine inv_bind inv_image fun p => inv_bind (inv_lift _) fun _ => inv_sec fun s => inv_bind ?_ fun _ =>
    inv_modify (hI.hasSec i s).size
  unfold newVsizeM
  split
  · exact inv_bind (inv_lift _) fun _ => inv_setSec hI ⟨rfl, rfl, rfl, rfl, rfl, rfl, rfl⟩
  · exact inv_setSec hI ⟨rfl, rfl, rfl, rfl, rfl, rfl, rfl⟩

theorem inv_prepare (hI : Stable I) (i : Nat) : Inv I (prepareM i) :=
  inv_bind inv_image fun _ => inv_sec fun _ => inv_bind (inv_setSec hI ⟨rfl, rfl, rfl, rfl, rfl, rfl, rfl⟩) fun _ =>
    inv_bind (inv_lift _) fun _ => inv_setSec hI ⟨rfl, rfl, rfl, rfl, rfl, rfl, rfl⟩

theorem inv_strip (hI : Stable I) (i : Nat) (b : Bool) : Inv I (stripM i b) := by
  unfold stripM
  split
  · exact inv_bind (inv_onData hI _ _) fun _ => inv_sec fun _ => inv_setSec hI ⟨rfl, rfl, rfl, rfl, rfl, rfl, rfl⟩
  · exact inv_pure ()

theorem inv_recalculate (hI : Stable I) (i : Nat) (b : Bool) : Inv I (recalculateM i b) := by
  refine inv_bind (inv_prepare hI i) fun _ => inv_bind inv_image fun p => inv_bind (inv_strip hI i _) fun _ => inv_sec fun s => ?_
  unfold adjustM
  split
  · exact inv_setVirtualSize (hI.hasSec i s) _ _
  · exact inv_pure ()

theorem inv_expand (hI : Stable I) (i rva size : Nat) (e : ExpandType) : Inv I (expandM i rva size e) := by
  refine inv_bind inv_image fun p => inv_bind (inv_lift _) fun _ => inv_sec fun s => inv_bind (inv_lift _) fun n => ?_
  have hs := hI.hasSec i s
  cases e
  · unfold expandToM
    dsimp only
    split
    · exact inv_bind (inv_onData hs _ _) fun _ => inv_bind (inv_recalculate hs _ _) fun _ => inv_pure _
    · exact inv_pure _
  · unfold expandToM
    dsimp only
    split
    · exact inv_bind (inv_setVirtualSize hs _ _) fun _ => inv_pure _
    · exact inv_pure _

theorem roundLast_step (p : Image) (b : Bool) : ∃ l, p.roundLast b = { p with secs := l } ∧ SecsStep p.secs l := by
  unfold Image.roundLast
  split
  · next last hl =>
    split
    · refine ⟨_, rfl, ?_⟩
      have hne : p.secs ≠ [] := by intro h; rw [h] at hl; exact absurd hl (by simp)
      rw [List.getLast?_eq_some_getLast hne] at hl
      obtain rfl := Option.some.inj hl
      have hlen : 0 < p.secs.length := List.length_pos_iff.mpr hne
      have e : ∀ x, p.secs.dropLast ++ [x] = p.secs.set (p.secs.length - 1) x := by
        intro x
        apply List.ext_getElem?
        intro j
        rw [List.getElem?_set, List.getElem?_append, List.length_dropLast]
        split
        · rw [if_neg (by omega), List.getElem?_dropLast, if_pos (by assumption)]
        · split
          · next h1 h2 => subst h2; rw [if_pos (by omega)]; simp
          · rw [List.getElem?_eq_none (by simp; omega), List.getElem?_eq_none (by omega)]
      rw [e]
      refine .set (s := p.secs.getLast hne) ?_ ⟨rfl, rfl, rfl, rfl, rfl, rfl, rfl⟩
      rw [List.getLast_eq_getElem, List.getElem?_eq_getElem (by omega)]
    · exact ⟨p.secs, rfl, .refl _⟩
  · exact ⟨p.secs, rfl, .refl _⟩

theorem inv_addSection (hI : Stable I) (s : Sec) (b : Bool) : Inv I (addSectionM s b) := by
  intro p hp
  unfold addSectionM
  show I (IM.andThen IM.image _ p).2
  unfold IM.andThen IM.image
  dsimp only
  by_cases hc : p.secs.length ≥ 96
  · rw [show throwIf (p.secs.length ≥ 96) .noMoreSectionsCanBeAdded = throwE .noMoreSectionsCanBeAdded from if_pos hc]
    exact hp
  · rw [show throwIf (p.secs.length ≥ 96) .noMoreSectionsCanBeAdded = .ok () from if_neg hc]
    rcases prepareSection p.nt.fileAlign p.nt.secAlign s with e | t
    · exact hp
    · obtain ⟨l, hl, hs⟩ := roundLast_step p b
      have h1 := hI.secs p l hs hp
      have hlen := hs.len
      have h2 := hI.add { p with secs := l } { t with va := p.newSectionVa t } (show l.length < 96 by omega) h1
      have h3 := hI.nt ({ p with
          secs := l ++ [{ t with va := p.newSectionVa t }], nt := { p.nt with numSections := w16 (l.length + 1) } } : Image)
        { ({ p.nt with numSections := w16 (l.length + 1) } : NtHdr) with
        sizeImage := w32 (p.nt.sizeImage + ({ t with va := p.newSectionVa t } : Sec).alignedVS p.nt.secAlign) }
        ⟨⟨rfl, rfl, rfl, rfl, rfl, rfl, rfl, rfl, rfl, rfl, rfl, rfl, rfl, rfl, rfl, rfl⟩, rfl, id, id, rfl⟩ h2
      show I { (p.roundLast b) with
        secs := (p.roundLast b).secs ++ [{ t with va := p.newSectionVa t }],
        nt := { (p.roundLast b).nt with
          numSections := w16 ((p.roundLast b).secs ++ [{ t with va := p.newSectionVa t }]).length,
          sizeImage := w32 ((p.roundLast b).nt.sizeImage + ({ t with va := p.newSectionVa t } : Sec).alignedVS (p.roundLast b).nt.secAlign) } }
      rw [hl]
      simp only [List.length_append, List.length_singleton]
      exact h3

theorem inv_setDir (hI : Stable I) {f : NtHdr → Res NtHdr} (h : ∀ k a b, f a = .ok b → NtStep k a b) : Inv I (setDirM f) := by
  intro p hp
  unfold setDirM
  show I (IM.andThen IM.image _ p).2
  unfold IM.andThen IM.image
  dsimp only
  rcases hf : f p.nt with e | b
  · exact hp
  · exact hI.nt p b (h p.kind p.nt b hf) hp

theorem dirSet_step (k : Kind) {a b : NtHdr} {id : Nat} {d : Nat × Nat} (hd : (∀ d ∈ a.dirs, d.1 < 4294967296) → d.1 < 4294967296)
    (h : a.dirSet id d = .ok b) : NtStep k a b := by
  unfold NtHdr.dirSet at h
  split at h
  · cases h
    refine ⟨⟨rfl, rfl, rfl, rfl, rfl, rfl, rfl, rfl, rfl, rfl, rfl, rfl, rfl, rfl, rfl, List.length_set⟩, rfl, fun hr e he => ?_, fun x => x, rfl⟩
    rcases List.mem_or_eq_of_mem_set he with he | rfl
    · exact hr e he
    · exact hd hr
  · cases h

theorem setDirRva_step (k : Kind) {a b : NtHdr} {id v : Nat} (hv : v < 4294967296) (h : a.setDirRva id v = .ok b) : NtStep k a b := by
  unfold NtHdr.setDirRva at h
  split at h
  · cases h
  · obtain ⟨d, -, h⟩ := bind_ok_iff.mp h
    exact dirSet_step k (fun _ => hv) h

theorem setDirSize_step (k : Kind) {a b : NtHdr} {id v : Nat} (h : a.setDirSize id v = .ok b) : NtStep k a b := by
  unfold NtHdr.setDirSize at h
  split at h
  · cases h
  · obtain ⟨d, hd, h⟩ := bind_ok_iff.mp h
    refine dirSet_step k (fun hr => ?_) h
    unfold NtHdr.dirAt at hd
    split at hd
    · next e he => cases hd; exact (show d.1 < _ from hr d (List.mem_of_getElem? he))
    · cases hd

/-! ### The rebuilders -/

theorem inv_saveDir (hI : Stable I) (save : Bool) (id : Nat) {dir : Nat × Nat} (hd : dir.1 < 4294967296) :
    Inv I (saveDirM save id dir) := by
  unfold saveDirM
  split
  · exact inv_bind (inv_setDir hI fun k a b h => setDirRva_step k hd h) fun _ => inv_setDir hI fun k a b h => setDirSize_step k h
  · exact inv_pure ()

theorem inv_finishDir (hI : Stable I) (i : Nat) (strip save : Bool) (id : Nat) {dir : Nat × Nat} (hd : dir.1 < 4294967296) :
    Inv I (finishDirM i strip save id dir) :=
  inv_bind (inv_recalculate hI _ _) fun _ => inv_bind (inv_saveDir hI _ _ hd) fun _ => inv_pure _

theorem inv_writeDir (hI : Stable I) (i need : Nat) (w : Bytes → Res Bytes) (strip save : Bool) (id : Nat) {dir : Nat × Nat}
    (hd : dir.1 < 4294967296) : Inv I (writeDirM i need w strip save id dir) :=
  inv_bind (inv_onData hI _ _) fun _ => inv_bind (inv_onData hI _ _) fun _ => inv_finishDir hI _ _ _ _ hd

theorem w32_small (n : Nat) : w32 n < 4294967296 := Nat.mod_lt _ (by decide)

theorem inv_rebuildExports (hI : Stable I) (info : ExportInfo) (l : List ExportFn) (i off : Nat) (save strip : Bool) :
    Inv I (rebuildExportsM info l i off save strip) := by
  refine inv_bind inv_image fun p => ?_
  split
  · exact inv_lift _
  · exact inv_bind (inv_lift _) fun _ => inv_bind (inv_lift _) fun _ => inv_writeDir hI _ _ _ _ _ _ (w32_small _)

theorem inv_rebuildBound (hI : Stable I) (l : List BoundMod) (i off : Nat) (save strip : Bool) :
    Inv I (rebuildBoundM l i off save strip) := by
  refine inv_bind inv_image fun p => ?_
  split
  · exact inv_lift _
  · exact inv_bind (inv_lift _) fun _ => inv_writeDir hI _ _ _ _ _ _ (w32_small _)

theorem inv_putName (hI : Stable I) (i base : Nat) (k : ResKey) (np : Nat) : Inv I (putNameM i base k np) := by
  cases k
  · exact inv_pure _
  · exact inv_bind (inv_onData hI _ _) fun _ => inv_bind (inv_lift _) fun _ => inv_bind (inv_onData hI _ _) fun _ => inv_pure _

mutual
theorem inv_putEntry (hI : Stable I) (i va base : Nat) (e : ResEntry) (tp : Nat) (s : ResPos) : Inv I (e.putM i va base tp s) := by
  match e with
  | .empty k =>
    unfold ResEntry.putM
    exact inv_bind (inv_putName hI _ _ _ _) fun _ => inv_lift _
  | .data k cp x =>
    unfold ResEntry.putM
    exact inv_bind (inv_putName hI _ _ _ _) fun _ => inv_bind (inv_onData hI _ _) fun _ => inv_bind (inv_onData hI _ _) fun _ =>
      inv_bind (inv_onData hI _ _) fun _ => inv_pure _
  | .dir k h es =>
    unfold ResEntry.putM
    exact inv_bind (inv_putName hI _ _ _ _) fun _ => inv_bind (inv_onData hI _ _) fun _ => inv_bind (inv_onData hI _ _) fun _ =>
      inv_putEntries hI i va base es _ _
theorem inv_putEntries (hI : Stable I) (i va base : Nat) (es : List ResEntry) (tp : Nat) (s : ResPos) :
    Inv I (putEntriesM i va base es tp s) := by
  match es with
  | [] => unfold putEntriesM; exact inv_pure _
  | e :: es =>
    unfold putEntriesM
    exact inv_bind (inv_putEntry hI i va base e tp s) fun s => inv_putEntries hI i va base es _ s
end

theorem inv_rebuildResources (hI : Stable I) (r : ResDir) (i off : Nat) (save strip : Bool) :
    Inv I (rebuildResourcesM r i off save strip) := by
  refine inv_bind inv_image fun p => ?_
  split
  · exact inv_lift _
  · refine inv_bind (inv_lift _) fun _ => inv_bind (inv_lift _) fun _ => inv_bind (inv_lift _) fun _ =>
      inv_bind (inv_onData hI _ _) fun _ => inv_bind ?_ fun _ => inv_finishDir hI _ _ _ _ (w32_small _)
    unfold putDirM
    exact inv_bind (inv_onData hI _ _) fun _ => inv_putEntries hI _ _ _ _ _ _

theorem inv_rebuildRelocations (hI : Stable I) (l : List RelocTable) (i off : Nat) (save strip : Bool) :
    Inv I (rebuildRelocationsM l i off save strip) := by
  refine inv_bind inv_image fun p => ?_
  split
  · exact inv_lift _
  · refine inv_bind (inv_lift _) fun _ => inv_bind (inv_onData hI _ _) fun _ => inv_bind (inv_onData hI _ _) fun _ =>
      inv_bind (inv_recalculate hI _ _) fun _ => inv_bind ?_ fun _ => inv_pure _
    unfold saveRelocM
    split
    · exact inv_bind (inv_setDir hI fun k a b h => setDirRva_step k (w32_small _) h) fun _ =>
        inv_bind (inv_setDir hI fun k a b h => setDirSize_step k h) fun _ =>
        inv_bind (inv_nt hI fun p => ⟨⟨rfl, rfl, rfl, rfl, rfl, rfl, rfl, rfl, rfl, rfl, rfl, rfl, rfl, rfl, rfl, rfl⟩, rfl, id, id, rfl⟩) fun _ =>
        inv_nt hI fun p => ⟨⟨rfl, rfl, rfl, rfl, rfl, rfl, rfl, rfl, rfl, rfl, rfl, rfl, rfl, rfl, rfl, rfl⟩, rfl, id, id, rfl⟩
    · exact inv_pure ()

theorem inv_writeLocks (hI : Stable I) (i : Nat) (l : List Nat) : ∀ pos, Inv I (writeLocksM i pos l) := by
  induction l with
  | nil => exact fun pos => inv_bind inv_image fun _ => inv_onData hI _ _
  | cons r rs ih =>
    exact fun pos => inv_bind inv_image fun _ => inv_bind (inv_lift _) fun _ => inv_bind (inv_onData hI _ _) fun _ => ih _

theorem inv_rebuildConfig (hI : Stable I) (c : ConfigInfo) (i off : Nat) (wse wlock save strip : Bool) :
    Inv I (rebuildConfigM c i off wse wlock save strip) := by
  refine inv_bind inv_image fun p => ?_
  split
  · exact inv_lift _
  · refine inv_bind (inv_lift _) fun _ => inv_bind (inv_onData hI _ _) fun _ => inv_bind (inv_lift _) fun _ =>
      inv_bind (inv_lift _) fun _ => inv_bind (inv_onData hI _ _) fun _ => inv_bind (inv_onData hI _ _) fun _ =>
      inv_bind ?_ fun _ => inv_finishDir hI _ _ _ _ (w32_small _)
    unfold writeLocksIfM
    split
    · exact inv_writeLocks hI _ _ _
    · exact inv_pure ()

theorem inv_writeLoc (hI : Stable I) (l : Loc) (x : Bytes) : Inv I (writeLocM l x) := by
  intro p hp
  unfold writeLocM
  show I (IM.andThen IM.image _ p).2
  unfold IM.andThen IM.image
  dsimp only
  rcases hw : p.writeLoc l x with e | q
  · exact hp
  · show I q
    unfold Image.writeLoc at hw
    cases l with
    | hdr off =>
      obtain ⟨h, hh, hw⟩ := bind_ok_iff.mp hw
      cases hw
      exact hI.hdr p h (writeAt_length hh) hp
    | sec i off =>
      dsimp only at hw
      split at hw
      · cases hw
      · next s hs =>
        obtain ⟨d, hd, hw⟩ := bind_ok_iff.mp hw
        cases hw
        exact hI.secs p _ (.set hs ⟨rfl, rfl, rfl, rfl, rfl, rfl, rfl⟩) hp

theorem inv_poke (hI : Stable I) (rva : Nat) (x : Bytes) (b : Bool) : Inv I (Call.poke rva x b).run :=
  inv_bind inv_image fun _ => inv_bind (inv_lift _) fun _ => inv_writeLoc hI _ _

theorem inv_expandQuiet (hI : Stable I) (rva size : Nat) (e : ExpandType) : Inv I (expandQuietM rva size e) :=
  inv_quiet (inv_bind inv_image fun _ => inv_bind (inv_lift _) fun _ => inv_expand hI _ _ _ _)

theorem inv_rebuildTls (hI : Stable I) (t : TlsInfo) (i off : Nat) (wcb wdata : Bool) (e : ExpandType) (save strip : Bool) :
    Inv I (rebuildTlsM t i off wcb wdata e save strip) := by
  refine inv_bind inv_image fun p => ?_
  split
  · exact inv_lift _
  · refine inv_bind (inv_lift _) fun _ => inv_bind (inv_lift _) fun _ => inv_bind (inv_onData hI _ _) fun _ =>
      inv_bind (inv_lift _) fun _ => inv_bind (inv_onData hI _ _) fun _ => inv_bind ?_ fun _ => inv_bind ?_ fun _ =>
      inv_sec fun s => inv_finishDir (hI.hasSec i s) _ _ _ _ (w32_small _)
    · unfold tlsPutDataM
      split
      · refine inv_bind (inv_expandQuiet hI _ _ _) fun _ => inv_bind inv_image fun _ => inv_bind (inv_lift _) fun _ => ?_
        unfold tlsCopyM
        split
        · exact inv_pure ()
        · exact inv_bind inv_image fun _ => inv_bind (inv_lift _) fun _ => inv_bind (inv_lift _) fun _ => inv_writeLoc hI _ _
      · exact inv_pure ()
    · unfold tlsPutCallbacksM
      split
      · exact inv_bind inv_image fun _ => inv_bind (inv_expandQuiet hI _ _ _) fun _ => inv_bind inv_image fun _ =>
          inv_bind (inv_lift _) fun _ => inv_bind (inv_lift _) fun _ => inv_bind (inv_lift _) fun _ => inv_bind (inv_lift _) fun _ =>
          inv_bind (inv_lift _) fun _ => inv_bind (inv_lift _) fun _ => inv_writeLoc hI _ _
      · exact inv_pure ()

theorem inv_savedPut (hI : Stable I) (rva v : Nat) : Inv I (savedPutM rva v) :=
  inv_bind inv_image fun _ => inv_bind (inv_lift _) fun _ => inv_bind (inv_lift _) fun _ => inv_bind (inv_lift _) fun _ =>
    inv_writeLoc hI _ _

theorem inv_putIat (hI : Stable I) (i ptr : Nat) (pl : ImportPlan) (adv : Bool) (v : Nat) (x : ImportPos) :
    Inv I (putIatM i ptr pl adv v x) := by
  unfold putIatM
  split
  · exact inv_bind (inv_savedPut hI _ _) fun _ => inv_pure _
  · exact inv_bind (inv_writeLoc hI _ _) fun _ => inv_pure _

theorem inv_putOrig (hI : Stable I) (i ptr : Nat) (pl : ImportPlan) (v : Nat) (x : ImportPos) :
    Inv I (putOrigM i ptr pl v x) := by
  unfold putOrigM
  split
  · exact inv_bind (inv_savedPut hI _ _) fun _ => inv_pure _
  · exact inv_bind (inv_writeLoc hI _ _) fun _ => inv_pure _

theorem inv_fnOrig (hI : Stable I) (i ptr : Nat) (pl : ImportPlan) (v : Nat) (x : ImportPos) : Inv I (fnOrigM i ptr pl v x) := by
  unfold fnOrigM
  split
  · exact inv_putOrig hI _ _ _ _ _
  · exact inv_pure _

theorem inv_putFn (hI : Stable I) (i va ptr : Nat) (pl : ImportPlan) (f : ImportFn) (x : ImportPos) :
    Inv I (putFnM i va ptr pl f x) := by
  unfold putFnM
  refine inv_bind ?_ fun _ => inv_bind (inv_fnOrig hI _ _ _ _ _) fun _ => ?_
  · unfold fnIatM
    split
    · exact inv_pure _
    · split
      · exact inv_putIat hI _ _ _ _ _ _
      · exact inv_putIat hI _ _ _ _ _ _
  · unfold fnNameM
    split
    · exact inv_bind (inv_writeLoc hI _ _) fun _ => inv_bind (inv_writeLoc hI _ _) fun _ => inv_pure _
    · exact inv_pure _

theorem inv_putFns (hI : Stable I) (i va ptr : Nat) (pl : ImportPlan) (l : List ImportFn) : ∀ x, Inv I (putFnsM i va ptr pl l x) := by
  induction l with
  | nil => exact fun x => inv_pure _
  | cons f fs ih => exact fun x => inv_bind (inv_putFn hI _ _ _ _ _ _) ih

theorem inv_putLib (hI : Stable I) (c : ImportCfg) (i va ptr desc : Nat) (l : ImportLib) (x : ImportPos) :
    Inv I (putLibM c i va ptr desc l x) := by
  unfold putLibM
  refine inv_bind (inv_writeLoc hI _ _) fun _ => inv_bind (inv_writeLoc hI _ _) fun _ => inv_bind (inv_putFns hI _ _ _ _ _ _) fun _ =>
    inv_bind ?_ fun _ => inv_fnOrig hI _ _ _ _ _
  unfold endIatM
  split
  · exact inv_pure _
  · exact inv_putIat hI _ _ _ _ _ _

theorem inv_putLibs (hI : Stable I) (c : ImportCfg) (i va ptr : Nat) (l : List ImportLib) :
    ∀ desc x, Inv I (putLibsM c i va ptr desc l x) := by
  induction l with
  | nil => exact fun desc x => inv_bind (inv_writeLoc hI _ _) fun _ => inv_pure _
  | cons f fs ih => exact fun desc x => inv_bind (inv_putLib hI _ _ _ _ _ _ _) fun x => ih _ x

theorem inv_rebuildImports (hI : Stable I) (ls : List ImportLib) (i : Nat) (c : ImportCfg) (off : Nat) (save zeroIat strip : Bool) :
    Inv I (rebuildImportsM ls i c off save zeroIat strip) := by
  refine inv_bind inv_image fun p => ?_
  split
  · exact inv_lift _
  · exact inv_bind (inv_lift _) fun _ => inv_bind (inv_onData hI _ _) fun _ => inv_bind (inv_putLibs hI _ _ _ _ _ _ _) fun _ =>
      inv_bind (inv_onData hI _ _) fun _ => inv_bind (inv_finishDir hI _ _ _ _ (w32_small _)) fun _ =>
      inv_bind (inv_saveDir hI _ _ (by decide)) fun _ => inv_pure _

/-! ### Rebasing and saving -/

theorem inv_rebaseEntries (hI : Stable I) (delta b : Nat) (l : List RelocEntry) : Inv I (rebaseEntriesM delta b l) := by
  induction l with
  | nil => exact inv_pure ()
  | cons e es ih =>
    unfold rebaseEntriesM
    split
    · exact ih
    · exact inv_bind (inv_bind inv_image fun _ => inv_bind (inv_lift _) fun _ => inv_bind (inv_lift _) fun _ => inv_writeLoc hI _ _)
        fun _ => ih

theorem inv_rebaseTables (hI : Stable I) (delta : Nat) (l : List RelocTable) : Inv I (rebaseTablesM delta l) := by
  induction l with
  | nil => exact inv_pure ()
  | cons t ts ih => exact inv_bind (inv_rebaseEntries hI _ _ _) fun _ => ih

theorem wrap_bound (k : Kind) (v : Nat) : k.wrap v < 256 ^ k.ptr := by
  cases k
  · exact Nat.mod_lt _ (by decide)
  · exact Nat.mod_lt _ (by decide)

theorem inv_rebase (hI : Stable I) (l : List RelocTable) (b : Nat) : Inv I (rebaseM l b) :=
  inv_bind inv_image fun _ => inv_bind (inv_rebaseTables hI _ _) fun _ =>
    inv_nt hI fun _ => ⟨⟨rfl, rfl, rfl, rfl, rfl, rfl, rfl, rfl, rfl, rfl, rfl, rfl, rfl, rfl, rfl, rfl⟩, rfl, id, fun _ => wrap_bound _ _, rfl⟩

theorem placeSecs_step (fa : Nat) (l : List Sec) : ∀ ptr, SecsStep l (placeSecs fa ptr l) := by
  induction l with
  | nil => exact fun ptr => .refl _
  | cons s l ih =>
    intro ptr
    unfold placeSecs
    split
    · refine ⟨by simp [(ih _).len], fun i t ht => ?_⟩
      cases i with
      | zero => cases ht; exact ⟨_, rfl, ⟨rfl, rfl, rfl, rfl, rfl, rfl, rfl⟩⟩
      | succ i => exact (ih _).each i t ht
    · refine ⟨by simp [(ih _).len], fun i t ht => ?_⟩
      cases i with
      | zero => cases ht; exact ⟨_, rfl, .refl _⟩
      | succ i => exact (ih _).each i t ht

theorem Stable.finish (hI : Stable I) (ptr : Nat) (p : Image) (h : I p) : I (p.finishHeaders p.nt ptr) := by
  have h1 := hI.count p h
  have h2 := hI.size _ h1
  obtain ⟨b, hb, -⟩ := updateImageSize_step { p with nt := { p.nt with numSections := w16 p.secs.length } }
  unfold Image.finishHeaders
  dsimp only
  rw [hb] at h2 ⊢
  have h3 := hI.nt ({ p with nt := b } : Image) { b with sizeOptHdr := w16 (sub64 p.kind.sizeofOpt b.dirGap) }
    ⟨⟨rfl, rfl, rfl, rfl, rfl, rfl, rfl, rfl, rfl, rfl, rfl, rfl, rfl, rfl, rfl, rfl⟩, rfl, id, id, rfl⟩ h2
  exact hI.secs ({ p with nt := { b with sizeOptHdr := w16 (sub64 p.kind.sizeofOpt b.dirGap) } } : Image) _
    (placeSecs_step p.nt.fileAlign p.secs ptr) h3

theorem inv_rebuildHeaders (hI : Stable I) (a b c : Bool) : Inv I (rebuildHeadersM a b c) := by
  unfold rebuildHeadersM
  refine inv_bind (inv_modify fun p hp => ?_) fun _ => inv_bind inv_image fun _ => inv_bind (inv_lift _) fun _ => inv_bind ?_ fun _ =>
    inv_bind inv_image fun _ => inv_bind (inv_lift _) fun _ => inv_bind (inv_nt hI fun p => ?_) fun _ =>
    inv_bind (inv_modify (hI.finish _)) fun _ => inv_pure _
  · unfold Image.stripDos
    split
    · exact hI.nt ({ p with stub := [] } : Image) { p.nt with baseOfCode := 16 }
        ⟨⟨rfl, rfl, rfl, rfl, rfl, rfl, rfl, rfl, rfl, rfl, rfl, rfl, rfl, rfl, rfl, rfl⟩, rfl, id, id, rfl⟩ (hI.stub p [] hp)
    · exact hp
  · unfold placeBoundM
    split
    · exact inv_bind (inv_setDir hI fun k a b h => setDirRva_step k (w32_small _) h) fun _ => inv_bind inv_image fun _ =>
        inv_bind (inv_lift _) fun _ => inv_pure _
    · exact inv_pure _
  · unfold NtHdr.resizeHeaders
    split
    · exact ⟨⟨rfl, rfl, rfl, rfl, rfl, rfl, rfl, rfl, rfl, rfl, rfl, rfl, rfl, rfl, rfl, rfl⟩, rfl, id, id, rfl⟩
    · exact .refl _ _

theorem inv_rebuildPe (hI : Stable I) (a b c : Bool) : Inv I (rebuildPeM a b c) :=
  inv_bind inv_image fun _ => inv_bind (inv_lift _) fun _ => inv_bind (inv_lift _) fun _ => inv_bind (inv_rebuildHeaders hI _ _ _) fun _ =>
    inv_bind inv_image fun _ => inv_bind (inv_lift _) fun _ => inv_bind (inv_lift _) fun _ => inv_bind (inv_lift _) fun _ => inv_pure _

theorem removeDir_step (k : Kind) {a b : NtHdr} {id : Nat} (h : a.removeDirectory id = .ok b) : NtStep k a b := by
  unfold NtHdr.removeDirectory at h
  obtain ⟨x, -, h⟩ := bind_ok_iff.mp h
  split at h
  · obtain ⟨c, hc, h⟩ := bind_ok_iff.mp h
    refine (dirSet_step k (fun _ => by decide) hc).trans ?_
    split at h
    · cases h
      exact ⟨⟨rfl, rfl, rfl, rfl, rfl, rfl, rfl, rfl, rfl, rfl, rfl, rfl, rfl, rfl, rfl, rfl⟩, rfl, fun x => x, fun x => x, rfl⟩
    · split at h
      · cases h
        exact ⟨⟨rfl, rfl, rfl, rfl, rfl, rfl, rfl, rfl, rfl, rfl, rfl, rfl, rfl, rfl, rfl, rfl⟩, rfl, fun x => x, fun x => x, rfl⟩
      · cases h; exact .refl _ _
  · cases h; exact .refl _ _

theorem stripLoop_le (h : NtHdr) (m : Nat) (b : Bool) : ∀ n k, h.stripLoop m b n = .ok k → k ≤ n := by
  intro n
  induction n with
  | zero => intro k hk; cases hk; omega
  | succ n ih =>
    intro k hk
    unfold NtHdr.stripLoop at hk
    obtain ⟨d, -, hk⟩ := bind_ok_iff.mp hk
    split at hk
    · cases hk; omega
    · split at hk
      · cases hk; omega
      · have := ih k hk; omega

/-- Setters of header values other than the two counts. -/
theorem setAcc_step (k : Kind) (h : NtHdr) (a : Acc) (v : Nat) (h1 : a ≠ .numRva) (h2 : a ≠ .numSections) :
    NtStep k h (h.setAcc k a v) := by
  cases a <;> first
    | exact absurd rfl h1
    | exact absurd rfl h2
    | exact .refl _ _
    | exact ⟨⟨rfl, rfl, rfl, rfl, rfl, rfl, rfl, rfl, rfl, rfl, rfl, rfl, rfl, rfl, rfl, rfl⟩, rfl, fun x => x, fun x => x, rfl⟩
    | exact ⟨⟨rfl, rfl, rfl, rfl, rfl, rfl, rfl, rfl, rfl, rfl, rfl, rfl, rfl, rfl, rfl, rfl⟩, rfl, fun x => x, fun _ => wrap_bound _ _, rfl⟩

/-- The calls that every stable property survives. -/
theorem inv_call (hI : Stable I) (c : Call) (hl : c.Legal) (hb : ¬ c.ByHand) (hr : ∀ n b, c ≠ .stripDirs n b)
    (hn : ∀ v, c ≠ .setValue .numRva v) : Inv I c.run := by
  cases c with
  | setValue a v =>
    exact fun p hp => hI.nt p _ (setAcc_step p.kind p.nt a v (fun h => hn v (by rw [h])) (fun h => hb (by rw [h]; trivial))) hp
  | setDirRva id v => exact inv_setDir hI fun k a b h => setDirRva_step k hl h
  | setDirSize id v => exact inv_setDir hI fun k a b h => setDirSize_step k h
  | removeDir id => exact inv_setDir hI fun k a b h => removeDir_step k h
  | stripDirs n b => exact absurd rfl (hr n b)
  | stub b => exact fun p hp => hI.stub p b hp
  | sections f => exact absurd trivial hb
  | poke rva x b => exact inv_poke hI rva x b
  | addSection s b => exact inv_addSection hI s b
  | setVirtualSize i n => exact inv_setVirtualSize hI i n
  | recalculate i b => exact inv_recalculate hI i b
  | expand i rva size e => exact inv_drop (inv_expand hI i rva size e)
  | setFileAlignment a => exact inv_setFileAlignment hI a
  | realignSection i => exact inv_realignSection hI i
  | realignFile a => exact inv_realignFile hI a
  | rebuildExports info l i off save strip => exact inv_drop (inv_rebuildExports hI info l i off save strip)
  | rebuildBound l i off save strip => exact inv_drop (inv_rebuildBound hI l i off save strip)
  | rebuildResources r i off save strip => exact inv_drop (inv_rebuildResources hI r i off save strip)
  | rebuildRelocations l i off save strip => exact inv_drop (inv_rebuildRelocations hI l i off save strip)
  | rebuildConfig c i off wse wlock save strip => exact inv_drop (inv_rebuildConfig hI c i off wse wlock save strip)
  | rebuildTls t i off wcb wdata e save strip => exact inv_drop (inv_rebuildTls hI t i off wcb wdata e save strip)
  | rebuildImports ls i c off save zeroIat strip => exact inv_drop (inv_rebuildImports hI ls i c off save zeroIat strip)
  | rebase tables b => exact inv_rebase hI tables b
  | rebuildPe a b c => exact inv_drop (inv_rebuildPe hI a b c)

/-- `strip_data_directories` only lowers the number of directories. -/
theorem stripDirs_result (n : Nat) (b : Bool) (p : Image) :
    ∃ k, k ≤ p.nt.numRva ∧ ((Call.stripDirs n b).run p).2 = { p with nt := { p.nt with numRva := k } } := by
  show ∃ k, k ≤ p.nt.numRva ∧ (IM.andThen IM.image _ p).2 = _
  unfold IM.andThen IM.image
  dsimp only
  rcases hf : (do let r ← p.nt.stripDataDirectories n b; .ok r.1 : Res NtHdr) with e | h
  · exact ⟨p.nt.numRva, Nat.le_refl _, rfl⟩
  · obtain ⟨r, hr, h'⟩ := bind_ok_iff.mp hf
    cases h'
    unfold NtHdr.stripDataDirectories at hr
    obtain ⟨k, hk, hr⟩ := bind_ok_iff.mp hr
    have hle := stripLoop_le _ _ _ _ _ hk
    split at hr
    · cases hr; exact ⟨p.nt.numRva, Nat.le_refl _, rfl⟩
    · cases hr; exact ⟨k, hle, rfl⟩

end
end PE
