/-
C95: saving again, and saving with a computed checksum.
-/
import Verif.Props.SaveLoad
import Verif.Props.Checksum
import Verif.Props.Created
namespace PE

/-! ### Saving again -/

theorem placeSecs_idem (fa ptr : Nat) (l : List Sec) : placeSecs fa ptr (placeSecs fa ptr l) = placeSecs fa ptr l := by
  induction l generalizing ptr with
  | nil => rfl
  | cons s l ih =>
    by_cases h : s.rawSize ≠ 0
    · have e : placeSecs fa ptr (s :: l) = { s with rawPtr := w32 ptr } :: placeSecs fa (w64 (ptr + s.alignedRS fa)) l := by
        rw [placeSecs, if_pos h]
      rw [e, placeSecs, if_pos (show ({ s with rawPtr := w32 ptr } : Sec).rawSize ≠ 0 from h)]
      exact congrArg _ (ih _)
    · have e : placeSecs fa ptr (s :: l) = s :: placeSecs fa ptr l := by rw [placeSecs, if_neg h]
      rw [e, placeSecs, if_neg h, ih]

theorem placeSecs_head_any (fa ptr : Nat) (l : List Sec) (f : Nat → Bool) :
    (placeSecs fa ptr l).head?.any (fun s => f s.va) = l.head?.any (fun s => f s.va) := by
  cases l with
  | nil => rfl
  | cons s l =>
    rw [placeSecs]
    split <;> rfl

theorem placeSecs_last (fa ptr : Nat) (l : List Sec) {β : Type} (f : Sec → β) (hf : ∀ s x, f { s with rawPtr := x } = f s) :
    (placeSecs fa ptr l).getLast?.map f = l.getLast?.map f := by
  induction l generalizing ptr with
  | nil => rfl
  | cons s l ih =>
    have key : ∀ (t : Sec) (ptr' : Nat), f t = f s → (t :: placeSecs fa ptr' l).getLast?.map f = (s :: l).getLast?.map f := by
      intro t ptr' ht
      have := ih ptr'
      rw [List.getLast?_cons, List.getLast?_cons, Option.map_some, Option.map_some]
      revert this
      cases (placeSecs fa ptr' l).getLast? <;> cases l.getLast? <;> simp [ht]
    rw [placeSecs]
    split
    · exact key _ _ (hf s _)
    · exact key _ _ rfl

/-- `SizeOfImage` as the rebuilder computes it. -/
def Image.endOf (p : Image) (nt : NtHdr) : Nat :=
  ((p.secs.getLast?).map (fun s => w32 (s.va + s.alignedVS nt.secAlign))).getD nt.sizeHeaders

theorem finishHeaders_val (p : Image) (nt : NtHdr) (ptr : Nat) : p.finishHeaders nt ptr =
    { p with
      nt := { nt with numSections := w16 p.secs.length, sizeImage := p.endOf nt,
                      sizeOptHdr := w16 (sub64 p.kind.sizeofOpt nt.dirGap) },
      secs := placeSecs nt.fileAlign ptr p.secs } := by
  unfold Image.finishHeaders Image.updateImageSize Image.endOf
  dsimp only
  cases p.secs.getLast? <;> rfl

theorem endOf_place (p : Image) (nt n2 : NtHdr) (ptr fa : Nat) (h1 : n2.secAlign = nt.secAlign) (h2 : n2.sizeHeaders = nt.sizeHeaders) :
    ({ p with nt := n2, secs := placeSecs fa ptr p.secs } : Image).endOf n2 = p.endOf nt := by
  unfold Image.endOf
  dsimp only
  rw [placeSecs_last _ _ _ _ (fun s x => rfl), h1, h2]

theorem finish_again (p : Image) (nt : NtHdr) (ptr : Nat) (chg : Bool) (hc : chg = true → nt.sizeHeaders = w32 ptr) :
    (p.finishHeaders nt ptr).finishHeaders ((p.finishHeaders nt ptr).nt.resizeHeaders chg ptr) ptr = p.finishHeaders nt ptr := by
  have hr : (p.finishHeaders nt ptr).nt.resizeHeaders chg ptr = (p.finishHeaders nt ptr).nt := by
    unfold NtHdr.resizeHeaders
    split
    · next h =>
      have := hc h
      rw [finishHeaders_val]
      dsimp only
      rw [← this]
    · rfl
  have hv := finishHeaders_val p nt ptr
  generalize p.finishHeaders nt ptr = q at *
  have he : q.endOf q.nt = p.endOf nt := by
    rw [hv]
    exact endOf_place p nt _ ptr nt.fileAlign rfl rfl
  rw [hr, finishHeaders_val q, he, hv]
  dsimp only
  rw [placeSecs_idem, placeSecs_length]
  rfl

theorem placeBound_again {h nt : NtHdr} {w : Bool} {T ptr : Nat} (hh : h.placeBound w T = .ok (nt, ptr)) :
    nt.placeBound w T = .ok (nt, ptr) ∧ (w = false → nt = h ∧ ptr = T) ∧
      nt = { h with dirs := nt.dirs } := by
  unfold NtHdr.placeBound at hh ⊢
  cases w with
  | false =>
    simp only [Bool.false_eq_true, if_false, Except.ok.injEq, Prod.mk.injEq] at hh ⊢
    obtain ⟨rfl, rfl⟩ := hh
    exact ⟨by simp, by simp, rfl⟩
  | true =>
    simp only [if_true] at hh ⊢
    obtain ⟨n1, h1, hh⟩ := bind_ok_iff.mp hh
    obtain ⟨sz, h2, hh⟩ := bind_ok_iff.mp hh
    simp only [Except.ok.injEq, Prod.mk.injEq] at hh
    obtain ⟨rfl, rfl⟩ := hh
    unfold NtHdr.setDirRva at h1
    split at h1
    · cases h1
    next hn =>
    obtain ⟨d, hd, h1⟩ := bind_ok_iff.mp h1
    unfold NtHdr.dirSet at h1
    split at h1
    next hl =>
      cases h1
      refine ⟨?_, nofun, rfl⟩
      have e : ({ h with dirs := h.dirs.set dirBoundImport (w32 T, d.2) } : NtHdr).setDirRva dirBoundImport (w32 T)
          = .ok { h with dirs := h.dirs.set dirBoundImport (w32 T, d.2) } := by
        unfold NtHdr.setDirRva
        rw [if_neg (show ¬ h.numRva ≤ _ from hn)]
        have : ({ h with dirs := h.dirs.set dirBoundImport (w32 T, d.2) } : NtHdr).dirAt dirBoundImport = .ok (w32 T, d.2) := by
          unfold NtHdr.dirAt
          dsimp only
          rw [List.getElem?_set_self hl]
        rw [this, ok_bind]
        unfold NtHdr.dirSet
        rw [if_pos (by dsimp only; rw [List.length_set]; exact hl)]
        dsimp only
        rw [List.set_set]
      rw [e, ok_bind, h2]
      rfl
    next hl => cases h1

/-- Rebuilding the headers of an image that has just been rebuilt changes nothing. -/
theorem rebuildHeaders_again {p q : Image} {strip chg save : Bool} {lf : Nat} (h : p.rebuildHeaders strip chg save = .ok (q, lf))
    (hw : q.boundWanted save = (p.stripDos strip).boundWanted save) : q.rebuildHeaders strip chg save = .ok (q, lf) := by
  unfold Image.rebuildHeaders at h
  dsimp only at h
  obtain ⟨w, h1, h⟩ := bind_ok_iff.mp h
  obtain ⟨⟨nt, ptr⟩, h2, h⟩ := bind_ok_iff.mp h
  dsimp only at h
  obtain ⟨_, h3, h⟩ := bind_ok_iff.mp h
  simp only [Except.ok.injEq, Prod.mk.injEq] at h
  obtain ⟨rfl, rfl⟩ := h
  obtain ⟨b1, -, b3⟩ := placeBound_again h2
  rw [h1] at hw
  generalize hP : p.stripDos strip = P at *
  generalize hn : nt.resizeHeaders chg (alignUp64 ptr nt.fileAlign) = n1 at *
  have hfa : n1.fileAlign = nt.fileAlign := by rw [← hn]; unfold NtHdr.resizeHeaders; split <;> rfl
  have hrv : n1.numRva = nt.numRva := by rw [← hn]; unfold NtHdr.resizeHeaders; split <;> rfl
  have hdd : n1.dirs = nt.dirs := by rw [← hn]; unfold NtHdr.resizeHeaders; split <;> rfl
  have hsh : chg = true → n1.sizeHeaders = w32 (alignUp64 ptr nt.fileAlign) := by
    intro hc; rw [← hn]; unfold NtHdr.resizeHeaders; rw [if_pos hc]
  generalize hA : alignUp64 ptr nt.fileAlign = A at *
  generalize hQ : P.finishHeaders n1 A = Q at *
  have hv := finishHeaders_val P n1 A
  rw [hQ] at hv
  have hst : Q.stripDos strip = Q := by
    unfold Image.stripDos
    split
    · next hs =>
      subst hs
      have s1 : Q.stub = [] := by rw [hv, ← hP]; rfl
      have s2 : Q.nt.baseOfCode = 16 := by
        rw [hv]
        show n1.baseOfCode = 16
        have : n1.baseOfCode = nt.baseOfCode := by rw [← hn]; unfold NtHdr.resizeHeaders; split <;> rfl
        rw [this, b3, ← hP]
        rfl
      rw [← s1, ← s2]
    · rfl
  have hk : Q.kind = P.kind := by rw [hv]
  have htp : Q.tablePtr strip = P.tablePtr strip := by
    unfold Image.tablePtr NtHdr.dirGap
    have e1 : Q.nt.numRva = P.nt.numRva := by
      rw [hv]; show n1.numRva = _; rw [hrv, b3]
    have e2 : Q.secs.length = P.secs.length := by rw [hv]; exact placeSecs_length _ _ _
    have e3 : Q.stub = P.stub := by rw [hv]
    rw [e1, e2, e3, hk]
  have hlf : Q.newLfanew strip = P.newLfanew strip := by rw [hv]; rfl
  have hpb : Q.nt.placeBound w (P.tablePtr strip) = .ok (Q.nt, ptr) := by
    unfold NtHdr.placeBound at b1 ⊢
    cases w with
    | false =>
      simp only [Bool.false_eq_true, if_false, Except.ok.injEq, Prod.mk.injEq, true_and] at b1 ⊢
      exact b1
    | true =>
      simp only [if_true] at b1 ⊢
      obtain ⟨x, c1, c2⟩ := bind_ok_iff.mp b1
      obtain ⟨sz, c3, c4⟩ := bind_ok_iff.mp c2
      simp only [Except.ok.injEq, Prod.mk.injEq] at c4
      obtain ⟨rfl, c5⟩ := c4
      have d1 : Q.nt.dirs = x.dirs := by rw [hv]; exact hdd
      have d2 : Q.nt.numRva = x.numRva := by rw [hv]; exact hrv
      have f1 : Q.nt.setDirRva dirBoundImport (w32 (P.tablePtr strip)) = .ok Q.nt := by
        unfold NtHdr.setDirRva NtHdr.dirAt NtHdr.dirSet at c1 ⊢
        rw [d1, d2]
        split at c1
        · cases c1
        next hh =>
        rw [if_neg hh]
        split at c1
        next d hd =>
          rw [ok_bind] at c1 ⊢
          split at c1
          next hl =>
            rw [if_pos hl]
            have c1 := Except.ok.inj c1
            have : x.dirs.set dirBoundImport (w32 (P.tablePtr strip), d.2) = x.dirs := by
              have := congrArg NtHdr.dirs c1
              exact this
            rw [this, ← d1, ← d2]
          next hl => cases c1
        next hd => cases c1
      have f2 : Q.nt.getDirSize dirBoundImport = .ok sz := by
        unfold NtHdr.getDirSize NtHdr.dirAt at c3 ⊢
        rw [d1, d2]
        exact c3
      rw [f1, ok_bind, f2, ok_bind, c5]
  have hfq : Q.nt.fileAlign = nt.fileAlign := by rw [hv]; exact hfa
  unfold Image.rebuildHeaders
  dsimp only
  rw [hst, hw, ok_bind, htp, hpb, ok_bind]
  dsimp only
  rw [hfq, hA]
  have h4 : throwIf (chg = true ∧ Q.secs.head?.any (fun s => decide (w32 A > s.va)) = true) Err.cannotRebuildImage = .ok () := by
    rw [← h3]
    have : Q.secs.head?.any (fun s => decide (w32 A > s.va)) = P.secs.head?.any (fun s => decide (w32 A > s.va)) := by
      rw [hv]
      exact placeSecs_head_any _ _ _ (fun v => decide (w32 A > v))
    rw [this]
  rw [h4, ok_bind, hlf, ← hQ, finish_again P n1 A chg hsh]

/-- What the rebuilder looks at for bound imports: the decision, the address, the size. -/
theorem bound_same {p q : Image} (h1 : q.nt.dirs = p.nt.dirs) (h2 : q.nt.numRva = p.nt.numRva) :
    (∀ b, q.boundWanted b = p.boundWanted b) ∧ q.boundRva = p.boundRva ∧ q.nt.getDirRva dirBoundImport = p.nt.getDirRva dirBoundImport ∧
      q.nt.getDirSize dirBoundImport = p.nt.getDirSize dirBoundImport := by
  have e1 : ∀ id, q.hasDir id = p.hasDir id := by
    intro id; unfold Image.hasDir NtHdr.directoryExists NtHdr.dirAt; rw [h1, h2]
  have e2 : q.nt.getDirRva dirBoundImport = p.nt.getDirRva dirBoundImport := by
    unfold NtHdr.getDirRva NtHdr.dirAt; rw [h1, h2]
  have e3 : q.nt.getDirSize dirBoundImport = p.nt.getDirSize dirBoundImport := by
    unfold NtHdr.getDirSize NtHdr.dirAt; rw [h1, h2]
  refine ⟨?_, ?_, e2, e3⟩
  · intro b; unfold Image.boundWanted; rw [e1]
  · unfold Image.boundRva; rw [e1, e2]

theorem placeSecs_find_view (fa ptr a rva : Nat) (l : List Sec) :
    ((placeSecs fa ptr l).find? (fun s => s.containsRva a rva)).map (fun s => (s.va, s.viewLen .raw a, s.view .raw a)) =
      (l.find? (fun s => s.containsRva a rva)).map (fun s => (s.va, s.viewLen .raw a, s.view .raw a)) := by
  induction l generalizing ptr with
  | nil => rfl
  | cons s l ih =>
    have key : ∀ (t : Sec) (ptr' : Nat), t.containsRva a rva = s.containsRva a rva →
        (t.va, t.viewLen .raw a, t.view .raw a) = (s.va, s.viewLen .raw a, s.view .raw a) →
        ((t :: placeSecs fa ptr' l).find? (fun s => s.containsRva a rva)).map (fun s => (s.va, s.viewLen .raw a, s.view .raw a)) =
          ((s :: l).find? (fun s => s.containsRva a rva)).map (fun s => (s.va, s.viewLen .raw a, s.view .raw a)) := by
      intro t ptr' ht hv
      rw [List.find?_cons, List.find?_cons, ht]
      cases s.containsRva a rva
      · exact ih ptr'
      · exact congrArg some hv
    rw [placeSecs]
    split
    · exact key _ _ rfl rfl
    · exact key _ _ rfl rfl

/-- An image that has been saved can be saved again, which changes nothing and writes the same file - provided that
    the directories are where they were, bound imports on the same side of the end of the headers. -/
theorem save_again (p q : Image) (strip chg sb : Bool) (out : Bytes) (h : p.rebuildPe strip chg sb = .ok (q, out))
    (hd : q.nt.dirs = p.nt.dirs)
    (hb : sb = true → p.HasBound → (p.boundDir.1 ≤ p.nt.sizeHeaders ↔ p.boundDir.1 ≤ q.nt.sizeHeaders)) (hs : p.Sized) (fa : Pow2 p.nt.fileAlign) :
    q.rebuildPe strip chg sb = .ok (q, out) := by
  obtain ⟨-, e1, -⟩ := rebuildPe_ok hs fa h
  have hn : q.nt.numRva = p.nt.numRva := by rw [e1]; rfl
  obtain ⟨b1, b2, b3, b4⟩ := bound_same hd hn
  unfold Image.rebuildPe at h
  obtain ⟨_, h1, h⟩ := bind_ok_iff.mp h
  obtain ⟨rva, h2, h⟩ := bind_ok_iff.mp h
  dsimp only at h
  obtain ⟨⟨q', lf⟩, h3, h⟩ := bind_ok_iff.mp h
  dsimp only at h
  obtain ⟨hdr, h4, h⟩ := bind_ok_iff.mp h
  obtain ⟨bound, h5, h⟩ := bind_ok_iff.mp h
  obtain ⟨data, h6, h⟩ := bind_ok_iff.mp h
  simp only [Except.ok.injEq, Prod.mk.injEq] at h
  obtain ⟨rfl, h7⟩ := h
  have hrv := boundRva_eq hs h2
  have hsave : (sb && !decide (rva ≠ 0 ∧ rva > q'.nt.sizeHeaders)) = (sb && !decide (rva ≠ 0 ∧ rva > p.nt.sizeHeaders)) := by
    cases sb with
    | false => rfl
    | true =>
      simp only [Bool.true_and]
      refine congrArg (fun x => !x) ?_
      rw [decide_eq_decide]
      by_cases hB : p.HasBound
      · rw [hrv, if_pos hB]
        have := hb rfl hB
        omega
      · rw [hrv, if_neg hB]
        simp
  have hck : q'.checkBound sb = .ok () := by
    rw [← h1]
    unfold Image.checkBound
    rw [b1, b3, b4]
    have : ∀ x, q'.dataLenFrom x x .raw true = p.dataLenFrom x x .raw true := by
      intro x
      have g1 : q'.hdrData = p.hdrData := by rw [e1]; rfl
      have g2 : q'.nt.secAlign = p.nt.secAlign := by rw [e1]; rfl
      unfold Image.dataLenFrom Image.sectionFromRva
      rw [g1, g2]
      split
      · rfl
      · have := placeSecs_find_view p.nt.fileAlign (p.dataStart strip (p.savesBound sb)) p.nt.secAlign x p.secs
        have g3 : q'.secs = placeSecs p.nt.fileAlign (p.dataStart strip (p.savesBound sb)) p.secs := by rw [e1]; rfl
        rw [← g3] at this
        revert this
        cases q'.secs.find? (fun s => s.containsRva p.nt.secAlign x) <;> cases p.secs.find? (fun s => s.containsRva p.nt.secAlign x)
        · intro _; rfl
        · intro h; cases h
        · intro h; cases h
        · intro h
          simp only [Option.map_some, Option.some.injEq, Prod.mk.injEq] at h
          obtain ⟨v1, v2, -⟩ := h
          simp only [ok_bind]
          rw [v1, v2]
    simp only [this]
  have hst : ∀ b, (p.stripDos strip).boundWanted b = p.boundWanted b := by
    intro b
    unfold Image.boundWanted Image.hasDir
    rw [stripDos_nt]
    rfl
  unfold Image.rebuildPe
  rw [hck, ok_bind, b2, h2, ok_bind]
  dsimp only
  rw [hsave, rebuildHeaders_again h3 (by rw [b1, hst]), ok_bind]
  dsimp only
  rw [h4, ok_bind, h5, ok_bind, h6, ok_bind, h7]

/-- C95: an image that has been saved can be saved again: the file is the same and the image does not change. Bound
    imports, if there are any and they are to be saved, have to lie in a section (not at its very beginning, if the headers
    reach up to it), or already be where the rebuilder puts them, behind the section table; elsewhere this is false, see
    `C95_bound_lost`. -/
theorem C95_again_partial (p q : Image) (strip chg sb : Bool) (out : Bytes) (hs : p.Sized) (fa : Pow2 p.nt.fileAlign)
    (hb : sb = true → p.HasBound → (p.nt.sizeHeaders < p.boundDir.1 ∧ p.dataStart strip false < p.boundDir.1) ∨
      (p.boundDir.1 = p.tableEnd strip ∧ p.boundDir.1 ≤ p.nt.sizeHeaders ∧ p.dataStart strip true < 2 ^ 32))
    (h : p.rebuildPe strip chg sb = .ok (q, out)) : q.rebuildPe strip chg sb = .ok (q, out) := by
  obtain ⟨-, e1, -⟩ := rebuildPe_ok hs fa h
  have hsh : q.nt.sizeHeaders = if chg then w32 (p.dataStart strip (p.savesBound sb)) else p.nt.sizeHeaders := by rw [e1]; rfl
  have hdd : q.nt.dirs = if p.savesBound sb = true ∧ p.HasBound then p.nt.dirs.set 11 (w32 (p.tableEnd strip), p.boundDir.2) else p.nt.dirs := by
    rw [e1]; rfl
  have hw : ∀ x, w32 x ≤ x := fun x => Nat.mod_le _ _
  refine save_again p q strip chg sb out h ?_ ?_ hs fa
  · rw [hdd]
    split
    next hc =>
      have hsb : sb = true := by
        have := hc.1; unfold Image.savesBound at this; simp only [Bool.and_eq_true] at this; exact this.1
      rcases hb hsb hc.2 with g | g
      · have := hc.1
        unfold Image.savesBound at this
        simp [hc.2, hsb] at this
        omega
      · have hlt : p.tableEnd strip < 4294967296 := by
          have := tableEnd_le_dataStart fa strip true
          have := g.2.2
          omega
        have e : w32 (p.tableEnd strip) = p.tableEnd strip := Nat.mod_eq_of_lt hlt
        rw [e, ← g.1]
        have hsl := hs.dirs.slots
        have : p.nt.dirs[11]? = some p.boundDir := by
          unfold Image.boundDir
          rw [List.getElem?_eq_getElem (by omega)]; rfl
        apply List.ext_getElem?
        intro i
        by_cases hi : i = 11
        · subst hi; rw [List.getElem?_set_self (by omega), this]
        · rw [List.getElem?_set_ne (fun h => hi h.symm)]
    · rfl
  · intro hsb hB
    rw [hsh]
    rcases hb hsb hB with g | g
    · have hsv : p.savesBound sb = false := by
        unfold Image.savesBound; simp [hB]; intro _; omega
      rw [hsv]
      have := hw (p.dataStart strip false)
      split <;> omega
    · have hsv : p.savesBound sb = true := by
        unfold Image.savesBound; simp [hsb]; right; omega
      have := tableEnd_le_dataStart fa strip true
      have e : w32 (p.dataStart strip true) = p.dataStart strip true := Nat.mod_eq_of_lt g.2.2
      rw [hsv, e]
      split <;> omega

example : ∃ q out, savedImage.rebuildPe false true true = .ok (q, out) ∧ q ≠ savedImage ∧ q.rebuildPe false true true = .ok (q, out) := by
  obtain ⟨⟨q, out⟩, h1, h2⟩ := exists_of_okAnd (x := savedImage.rebuildPe false true true) (f := fun r => decide (r.1 ≠ savedImage)) (by decide +kernel)
  exact ⟨q, out, h1, by simpa using h2, C95_again_partial savedImage q false true true out savedImage_sized savedImage_pow2
    (fun _ hb => absurd hb (by decide)) h1⟩

/-- C95 fails for bound imports in the headers that the rebuilder moves: the directory entry is changed, but the bytes that
    are saved are taken from the headers as they were loaded. Here the second save finds nothing at the new place and throws;
    (with longer headers) it writes bytes that are not the bound imports. -/
theorem C95_bound_lost : (∃ (p q : Image) (out : Bytes), p.HasBound ∧ p.rebuildPe false true true = .ok (q, out) ∧ slice out q.boundDir.1 8 = [1, 2, 3, 4, 5, 6, 7, 8] ∧
      q.rebuildPe false true true = .error (.exn .noSectionFound)) ∧
    ∃ (p q q2 : Image) (out out2 : Bytes), p.HasBound ∧ p.rebuildPe false true true = .ok (q, out) ∧ slice out q.boundDir.1 8 = [1, 2, 3, 4, 5, 6, 7, 8] ∧
      q.rebuildPe false true true = .ok (q2, out2) ∧ q2.boundDir = q.boundDir ∧ slice out2 q2.boundDir.1 8 = zeros 8 := by
  constructor
  · obtain ⟨⟨q, out⟩, h1, h2⟩ := exists_of_okAnd (x := boundImage.rebuildPe false true true)
      (f := fun r => decide (slice r.2 r.1.boundDir.1 8 = [1, 2, 3, 4, 5, 6, 7, 8]) &&
        decide (r.1.rebuildPe false true true = .error (.exn .noSectionFound))) (by decide +kernel)
    simp only [Bool.and_eq_true, decide_eq_true_eq] at h2
    exact ⟨boundImage, q, out, by decide, h1, h2.1, h2.2⟩
  · obtain ⟨⟨q, out⟩, h1, h2⟩ := exists_of_okAnd (x := ({ boundImage with hdrData := boundImage.hdrData ++ zeros 400 } : Image).rebuildPe false true true)
      (f := fun r => decide (slice r.2 r.1.boundDir.1 8 = [1, 2, 3, 4, 5, 6, 7, 8]) &&
        okAnd (r.1.rebuildPe false true true) (fun t => decide (t.1.boundDir = r.1.boundDir) && decide (slice t.2 t.1.boundDir.1 8 = zeros 8))) (by decide +kernel)
    simp only [Bool.and_eq_true, decide_eq_true_eq] at h2
    obtain ⟨⟨q2, out2⟩, h3, h4⟩ := exists_of_okAnd h2.2
    simp only [Bool.and_eq_true, decide_eq_true_eq] at h4
    exact ⟨_, q, q2, out, out2, by decide, h1, h2.1, h3, h4.1, h4.2⟩

/-! ### The checksum of the saved file -/

/-- The image with another checksum. -/
def Image.stamp (p : Image) (c : Nat) : Image := p.setAcc .checksum c

theorem enc_checksum (k : Kind) (h : NtHdr) (c : Nat) :
    ∃ A B : Bytes, A.length = 88 ∧ encFields (ntFields k h) = A ++ (leBytes 4 h.checksum ++ B) ∧
      encFields (ntFields k (h.setAcc k .checksum c)) = A ++ (leBytes 4 (w32 c) ++ B) := by
  have key : ∀ (X Y : List (Nat × Nat)) (v : Nat), encFields (X ++ (4, v) :: Y) = encFields X ++ (leBytes 4 v ++ encFields Y) := by
    intro X Y v
    unfold encFields
    rw [List.flatMap_append, List.flatMap_cons]
  cases k
  · refine ⟨encFields ((ntFields .pe32 h).take 29), encFields ((ntFields .pe32 h).drop 30), ?_, ?_, ?_⟩
    · rw [encFields_length, List.map_take, ntFields_widths]; decide
    · rw [← key]; rfl
    · rw [← key]; rfl
  · refine ⟨encFields ((ntFields .pe64 h).take 28), encFields ((ntFields .pe64 h).drop 29), ?_, ?_, ?_⟩
    · rw [encFields_length, List.map_take, ntFields_widths]; decide
    · rw [← key]; rfl
    · rw [← key]; rfl

theorem stamp_finish (p : Image) (nt : NtHdr) (ptr c : Nat) (k : Kind) :
    (p.stamp c).finishHeaders (nt.setAcc k .checksum c) ptr = (p.finishHeaders nt ptr).stamp c := by
  rw [finishHeaders_val, finishHeaders_val]
  rfl

theorem stamp_headers {p q : Image} {strip chg save : Bool} {lf : Nat} (h : p.rebuildHeaders strip chg save = .ok (q, lf)) (c : Nat) :
    (p.stamp c).rebuildHeaders strip chg save = .ok (q.stamp c, lf) := by
  unfold Image.rebuildHeaders at h
  dsimp only at h
  obtain ⟨w, h1, h⟩ := bind_ok_iff.mp h
  obtain ⟨⟨nt, ptr⟩, h2, h⟩ := bind_ok_iff.mp h
  dsimp only at h
  obtain ⟨_, h3, h⟩ := bind_ok_iff.mp h
  simp only [Except.ok.injEq, Prod.mk.injEq] at h
  obtain ⟨rfl, rfl⟩ := h
  have hst : (p.stamp c).stripDos strip = (p.stripDos strip).stamp c := by cases strip <;> rfl
  unfold Image.rebuildHeaders
  dsimp only
  rw [hst]
  generalize p.stripDos strip = P at *
  have hw : (P.stamp c).boundWanted save = P.boundWanted save := rfl
  have ht : (P.stamp c).tablePtr strip = P.tablePtr strip := rfl
  have hpb : (P.stamp c).nt.placeBound w (P.tablePtr strip) = .ok (nt.setAcc p.kind .checksum c, ptr) := by
    unfold NtHdr.placeBound at h2 ⊢
    cases w with
    | false =>
      simp only [Bool.false_eq_true, if_false, Except.ok.injEq, Prod.mk.injEq] at h2 ⊢
      obtain ⟨rfl, rfl⟩ := h2
      exact ⟨rfl, rfl⟩
    | true =>
      simp only [if_true] at h2 ⊢
      obtain ⟨x, c1, c2⟩ := bind_ok_iff.mp h2
      obtain ⟨sz, c3, c4⟩ := bind_ok_iff.mp c2
      simp only [Except.ok.injEq, Prod.mk.injEq] at c4
      obtain ⟨rfl, c5⟩ := c4
      have f1 : (P.stamp c).nt.setDirRva dirBoundImport (w32 (P.tablePtr strip)) = .ok (x.setAcc p.kind .checksum c) := by
        unfold NtHdr.setDirRva NtHdr.dirAt NtHdr.dirSet at c1 ⊢
        have d1 : (P.stamp c).nt.dirs = P.nt.dirs := rfl
        have d2 : (P.stamp c).nt.numRva = P.nt.numRva := rfl
        rw [d1, d2]
        split at c1
        · cases c1
        next hh =>
        rw [if_neg hh]
        split at c1
        next d hd =>
          rw [ok_bind] at c1 ⊢
          split at c1
          next hl =>
            rw [if_pos hl]
            have c1 := Except.ok.inj c1
            rw [← c1]
            rfl
          next hl => cases c1
        next hd => cases c1
      have f2 : (x.setAcc p.kind .checksum c).getDirSize dirBoundImport = .ok sz := c3
      rw [f1, ok_bind, f2, ok_bind, c5]
  rw [hw, h1, ok_bind, ht, hpb, ok_bind]
  dsimp only
  have hfa : (nt.setAcc p.kind .checksum c).fileAlign = nt.fileAlign := rfl
  have hsec : (P.stamp c).secs = P.secs := rfl
  rw [hfa, hsec, h3, ok_bind]
  have hrz : (nt.setAcc p.kind .checksum c).resizeHeaders chg (alignUp64 ptr nt.fileAlign) =
      (nt.resizeHeaders chg (alignUp64 ptr nt.fileAlign)).setAcc p.kind .checksum c := by
    unfold NtHdr.resizeHeaders; split <;> rfl
  rw [hrz, stamp_finish]
  rfl

/-- C95: setting the checksum of an image changes exactly the checksum field in the file that is saved. -/
theorem C95_stamp (p q : Image) (strip chg sb : Bool) (out : Bytes) (c : Nat) (hs : p.Sized) (hp : p.Shaped)
    (fa : Pow2 p.nt.fileAlign) (h : p.rebuildPe strip chg sb = .ok (q, out)) :
    (p.setAcc .checksum c).rebuildPe strip chg sb =
      .ok (q.setAcc .checksum c, patch out (p.ntStart strip + 88) (leBytes 4 (c % 2 ^ 32))) := by
  obtain ⟨D, N, R, S, B0, data0, ho, hD, hDl, hN, hNl, -⟩ := out_parts hs hp fa h
  unfold Image.rebuildPe at h
  obtain ⟨_, h1, h⟩ := bind_ok_iff.mp h
  obtain ⟨rva, h2, h⟩ := bind_ok_iff.mp h
  dsimp only at h
  obtain ⟨⟨q', lf⟩, h3, h⟩ := bind_ok_iff.mp h
  dsimp only at h
  obtain ⟨hdr, h4, h⟩ := bind_ok_iff.mp h
  obtain ⟨bound, h5, h⟩ := bind_ok_iff.mp h
  obtain ⟨data, h6, h⟩ := bind_ok_iff.mp h
  simp only [Except.ok.injEq, Prod.mk.injEq] at h
  obtain ⟨rfl, h7⟩ := h
  change (p.stamp c).rebuildPe strip chg sb = .ok (q'.stamp c, _)
  have g1 : (p.stamp c).checkBound sb = p.checkBound sb := rfl
  have g2 : (p.stamp c).boundRva = p.boundRva := rfl
  have g3 : (p.stamp c).nt.sizeHeaders = p.nt.sizeHeaders := rfl
  obtain ⟨A, T, hA, hT1, hT2⟩ := enc_checksum q'.kind q'.nt c
  have g4 : ∃ H, hdr = A ++ (leBytes 4 q'.nt.checksum ++ H) ∧ (q'.stamp c).headerBytes = .ok (A ++ (leBytes 4 (w32 c) ++ H)) := by
    unfold Image.headerBytes at h4 ⊢
    have e1 : (q'.stamp c).nt.numRva = q'.nt.numRva := rfl
    have e2 : (q'.stamp c).nt.dirs = q'.nt.dirs := rfl
    have e3 : (q'.stamp c).secs = q'.secs := rfl
    have e4 : encFields (ntFields (q'.stamp c).kind (q'.stamp c).nt) = A ++ (leBytes 4 (w32 c) ++ T) := hT2
    rw [e1, e2, e3, e4]
    split at h4
    · cases h4
    next hh =>
    rw [if_neg hh]
    have h4 := Except.ok.inj h4
    refine ⟨T ++ (encDirs (q'.nt.dirs.take q'.nt.numRva) ++ q'.secs.flatMap encSec), ?_, ?_⟩
    · rw [← h4, hT1]; simp only [List.append_assoc]
    · simp only [List.append_assoc]
  obtain ⟨H, hH1, hH2⟩ := g4
  have g5 : ∀ b r, (q'.stamp c).boundBytes b r = q'.boundBytes b r := fun _ _ => rfl
  have g6 : (q'.stamp c).dosBytes strip lf = q'.dosBytes strip lf := rfl
  have g7 : (q'.stamp c).secs = q'.secs := rfl
  unfold Image.rebuildPe
  rw [g1, h1, ok_bind, g2, h2, ok_bind]
  dsimp only
  rw [g3, stamp_headers h3 c, ok_bind]
  dsimp only
  rw [hH2, ok_bind, g5, h5, ok_bind, g6, g7]
  have hlen : (q'.dosBytes strip lf ++ (A ++ (leBytes 4 (w32 c) ++ H) ++ bound)).length = (q'.dosBytes strip lf ++ (hdr ++ bound)).length := by
    rw [hH1]; simp only [List.length_append, leBytes_length]
  rw [hlen, h6, ok_bind]
  have hdl : (q'.dosBytes strip lf).length = p.ntStart strip := by
    obtain ⟨hq, -⟩ := rebuildPe_ok hs fa (q := q') (out := out) (sb := sb) (strip := strip) (chg := chg) (by
      unfold Image.rebuildPe
      rw [h1, ok_bind, h2, ok_bind]
      dsimp only
      rw [h3, ok_bind]
      dsimp only
      rw [h4, ok_bind, h5, ok_bind, h6, ok_bind, h7])
    have hq2 := rebuildHeaders_eq hs fa h3
    rw [← hDl, hD, hq2.2.1]
  refine congrArg (fun b => Except.ok (q'.stamp c, b)) ?_
  rw [← h7, hH1]
  unfold patch
  have hoff : p.ntStart strip + 88 = (q'.dosBytes strip lf ++ A).length := by rw [List.length_append, hdl, hA]
  have e1 : q'.dosBytes strip lf ++ (A ++ (leBytes 4 q'.nt.checksum ++ H) ++ bound) ++ data =
      (q'.dosBytes strip lf ++ A) ++ (leBytes 4 q'.nt.checksum ++ (H ++ (bound ++ data))) := by simp only [List.append_assoc]
  rw [e1, hoff, List.take_left', List.drop_append, leBytes_length]
  · rw [List.drop_of_length_le (by omega), List.nil_append, Nat.add_sub_cancel_left, List.drop_left' (leBytes_length _ _)]
    simp only [List.append_assoc]
    rfl
  · rfl

/-- C95: the usual way to give a file its checksum: save the image, compute the checksum of the file, set it, save again.
    The second file has the checksum in its header that is computed from it, and differs from the first one in this field
    only. With any of the settings of the rebuilder (and, if bound imports are saved, where `C95_again_partial` holds). -/
theorem C95_checksum_partial (p q : Image) (strip chg sb : Bool) (out : Bytes) (c : Nat) (hs : p.Sized) (hp : p.Shaped)
    (fa : Pow2 p.nt.fileAlign) (hst : p.stub.length ≤ 2 ^ 31 - 68)
    (hb : sb = true → p.HasBound → (p.nt.sizeHeaders < p.boundDir.1 ∧ p.dataStart strip false < p.boundDir.1) ∨
      (p.boundDir.1 = p.tableEnd strip ∧ p.boundDir.1 ≤ p.nt.sizeHeaders ∧ p.dataStart strip true < 2 ^ 32))
    (h : p.rebuildPe strip chg sb = .ok (q, out)) (hc : calculateChecksum out = .ok c) :
    ∃ q2 out2, (q.setAcc .checksum c).rebuildPe strip chg sb = .ok (q2, out2) ∧ calculateChecksum out2 = .ok c ∧
      rd 4 out2 (rd 4 out2 60 + 88) = c ∧ out2.length = out.length ∧
      (∀ o n, o + n ≤ rd 4 out2 60 + 88 ∨ rd 4 out2 60 + 92 ≤ o → slice out2 o n = slice out o n) := by
  obtain ⟨-, e1, -⟩ := rebuildPe_ok hs fa h
  have hqs : q.Sized := by
    refine ⟨?_, ?_, ?_, ?_⟩
    · rw [e1]; exact rebuilt_dirsOk hs _ _ _
    · rw [e1]; show (if strip then [] else p.stub).length < _
      have := hs.stub
      split
      · decide
      · exact this
    · rw [e1]; show (placeSecs _ _ _).length < _; rw [placeSecs_length]; exact hs.secs
    · have hb := hs.bound
      have hsl := hs.dirs.slots
      unfold Image.boundDir at hb ⊢
      rw [e1, rebuilt_dirs]
      split
      · rw [List.getElem?_set_self (by omega)]; exact hb
      · exact hb
  have hqp : q.Shaped := by
    refine ⟨?_, ?_, ?_⟩
    · rw [e1]; exact hp.dos
    · rw [e1]; intro t ht
      obtain ⟨s, hs, x, rfl⟩ := placeSecs_mem ht
      exact hp.names s hs
    · rw [e1]; intro t ht
      obtain ⟨s, hs, x, rfl⟩ := placeSecs_mem ht
      exact hp.raws s hs
  have hqf : Pow2 q.nt.fileAlign := by rw [e1]; exact fa
  have hns : q.ntStart strip = p.ntStart strip := by
    rw [e1]; unfold Image.ntStart rebuiltImage; cases strip <;> rfl
  have hh := C18_headers p q strip chg sb out hs hp fa (by omega) h
  have hlf : rd 4 out 60 = p.ntStart strip := by
    cases strip with
    | false => exact (hh.1 rfl).2.1
    | true => exact (hh.2.1 rfl).2
  have hns2 : p.ntStart strip % 4 = 0 ∧ 16 ≤ p.ntStart strip ∧ p.ntStart strip < 2 ^ 31 := by
    unfold Image.ntStart
    have h1 := ceilTo_dvd p.stub.length 4
    have h2 := ceilTo_lt (x := p.stub.length) (a := 4) (by decide)
    cases strip <;> simp <;> omega
  have hlen : p.ntStart strip + 88 + 4 ≤ out.length := by
    obtain ⟨D, N, R, S, B0, data0, ho, hD, hDl, hN, hNl, -⟩ := out_parts hs hp fa h
    rw [ho]
    simp only [List.length_append]
    have : 120 ≤ p.kind.sizeofNtBase := by cases p.kind <;> decide
    omega
  have hc32 : c % 2 ^ 32 = c := by
    obtain ⟨s, h1, -⟩ := C21_checksum_value out c hc
    rw [h1]; simp
  have hagain := C95_again_partial p q strip chg sb out hs fa hb h
  have hst2 := C95_stamp q q strip chg sb out c hqs hqp hqf hagain
  rw [hns, hc32] at hst2
  have hl4 : (leBytes 4 c).length = 4 := leBytes_length _ _
  have hrd : rd 4 (patch out (p.ntStart strip + 88) (leBytes 4 c)) 60 = p.ntStart strip := by
    rw [← hlf]
    unfold rd
    rw [slice_patch_before (by have := hlf; unfold rd at this; rw [this]; omega) (by have := hlf; unfold rd at this; rw [this]; omega)]
  refine ⟨_, _, hst2, ?_, ?_, ?_, ?_⟩
  · have := C20_field_independent out (leBytes 4 c) hl4 (by rw [hlf]; exact hns2.2.2) (by rw [hlf]; exact hns2.1) (by rw [hlf]; exact hlen)
    rw [hlf] at this
    rw [this, hc]
  · rw [hrd]
    unfold rd
    have := slice_patch_same (b := out) (d := leBytes 4 c) (off := p.ntStart strip + 88) (by rw [hl4]; exact hlen)
    rw [hl4] at this
    rw [this, fromLE_leBytes]
    exact hc32
  · exact patch_length (by rw [hl4]; exact hlen)
  · intro o n ho
    rw [hrd] at ho
    exact slice_patch_disjoint (by rw [hl4]; exact hlen) (by rw [hl4]; omega)

/-- The steps of `C95_checksum_partial` with an image: the checksum of the saved file is set and saved. -/
example : ∃ q out c, savedImage.rebuildPe false true true = .ok (q, out) ∧ calculateChecksum out = .ok c ∧ c ≠ 0 ∧ q.nt.checksum = 0 ∧
    ∃ q2 out2, (q.setAcc .checksum c).rebuildPe false true true = .ok (q2, out2) ∧ calculateChecksum out2 = .ok c ∧
      rd 4 out2 (rd 4 out2 60 + 88) = c := by
  obtain ⟨⟨q, out⟩, h1, h2⟩ := exists_of_okAnd (x := savedImage.rebuildPe false true true)
    (f := fun r => okAnd (calculateChecksum r.2) (fun c => decide (c ≠ 0)) && decide (r.1.nt.checksum = 0)) (by decide +kernel)
  simp only [Bool.and_eq_true, decide_eq_true_eq] at h2
  obtain ⟨c, h3, h4⟩ := exists_of_okAnd h2.1
  obtain ⟨q2, out2, g1, g2, g3, -⟩ := C95_checksum_partial savedImage q false true true out c savedImage_sized savedImage_shaped savedImage_pow2
    (by decide) (fun _ hb => absurd hb (by decide)) h1 h3
  exact ⟨q, out, c, h1, h3, by simpa using h4, h2.2, q2, out2, g1, g2, g3⟩

end PE
