/-
C18: exactly when `rebuild_pe` succeeds (also for images whose bound import directory is carried over).
-/
import Verif.Props.Rebuild
namespace PE

/-- What saving needs of a bound import directory (if bound imports are to be kept): its address is an address of
    the headers or of a section, the bytes from there on to the end of the headers or of the raw data are at least as
    many as the directory says; and if it is to be copied behind the section table, it starts inside of the data. -/
def Image.BoundReadable (p : Image) (sb : Bool) : Prop :=
  sb = true → p.HasBound → ∃ b o, p.ptrFromRva p.boundDir.1 .raw true = .ok (b, o) ∧ p.boundDir.2 ≤ b.length - o ∧
    (p.savesBound sb = true → o ≤ b.length)

/-- The headers and the raw data of every section are shorter than 4 GiB. -/
structure Image.DataSmall (p : Image) : Prop where
  hdr : p.hdrData.length < 4294967296
  data : ∀ s ∈ p.secs, s.data.length < 4294967296

theorem w32_id' {n : Nat} (h : n < 4294967296) : w32 n = n := Nat.mod_eq_of_lt h

theorem hasDir_bound {p : Image} (ho : p.nt.DirsOk) (hn : p.nt.numRva ≠ 0) : p.hasDir dirBoundImport = .ok (decide p.HasBound) := by
  unfold Image.hasDir
  rcases hasBound_dir ho (id := dirBoundImport) with he | he
  · rw [he, if_neg hn]; rfl
  · exact absurd he (by decide)

theorem boundDir_get {p : Image} (ho : p.nt.DirsOk) : p.nt.dirs[dirBoundImport]? = some p.boundDir := by
  unfold Image.boundDir
  rw [show dirBoundImport = 11 from rfl, List.getElem?_eq_getElem (show 11 < p.nt.dirs.length by rw [ho.slots]; decide)]
  rfl

theorem boundRva_val {p : Image} (ho : p.nt.DirsOk) (hn : p.nt.numRva ≠ 0) :
    p.boundRva = .ok (if p.HasBound then p.boundDir.1 else 0) := by
  unfold Image.boundRva
  rw [hasDir_bound ho hn, ok_bind]
  by_cases hb : p.HasBound
  · rw [if_pos (decide_eq_true hb), if_pos hb, (getDir_stored ho (id := dirBoundImport) hb.1 (boundDir_get ho)).1]
  · rw [if_neg (by simpa using hb), if_neg hb]

theorem savesBound_val {p : Image} (sb : Bool) :
    (sb && !decide ((if p.HasBound then p.boundDir.1 else 0) ≠ 0 ∧ (if p.HasBound then p.boundDir.1 else 0) > p.nt.sizeHeaders)) = p.savesBound sb := by
  unfold Image.savesBound
  refine congrArg (fun x => sb && !x) ?_
  rw [decide_eq_decide]
  by_cases hb : p.HasBound
  · rw [if_pos hb]
    exact ⟨fun h => ⟨hb, h.2⟩, fun h => ⟨hb.2, h.2⟩⟩
  · rw [if_neg hb]
    exact ⟨fun h => absurd rfl h.1, fun h => absurd h.1 hb⟩

/-- Pointer and remaining length at an address are those of the same piece of data. -/
theorem ptr_len {p : Image} (hd : p.DataSmall) (rva : Nat) :
    (∃ b o, p.ptrFromRva rva .raw true = .ok (b, o) ∧ p.dataLenFrom rva rva .raw true = .ok (b.length - o)) ∨
    ((∀ x, p.ptrFromRva rva .raw true ≠ .ok x) ∧ ∀ x, p.dataLenFrom rva rva .raw true ≠ .ok x) := by
  unfold Image.ptrFromRva Image.dataLenFrom
  by_cases hh : rva < p.hdrData.length
  · rw [if_pos ⟨rfl, hh⟩, if_pos ⟨rfl, hh, hh⟩]
    refine .inl ⟨_, _, rfl, ?_⟩
    rw [w32_id' (by have := hd.hdr; omega)]
  · rw [if_neg (fun h => hh h.2), if_neg (fun h => hh h.2.1)]
    unfold Image.sectionFromRva
    cases hf : p.secs.find? (fun s => s.containsRva p.nt.secAlign rva) with
    | none => exact .inr ⟨fun x h => (by cases h), fun x h => (by cases h)⟩
    | some s =>
      have hm := List.mem_of_find?_eq_some hf
      have hc := List.find?_some hf
      simp only [Sec.containsRva, Bool.and_eq_true, decide_eq_true_eq] at hc
      refine .inl ⟨s.data, rva - s.va, rfl, ?_⟩
      rw [ok_bind, if_neg (by omega)]
      have := hd.data s hm
      simp only [Sec.viewLen]
      rw [w32_id' (by omega)]
      congr 1
      omega

theorem checkBound_iff {p : Image} (ho : p.nt.DirsOk) (hn : p.nt.numRva ≠ 0) (hd : p.DataSmall) (sb : Bool) :
    p.checkBound sb = .ok () ↔ (sb = true → p.HasBound → ∃ b o, p.ptrFromRva p.boundDir.1 .raw true = .ok (b, o) ∧
      p.boundDir.2 ≤ b.length - o) := by
  unfold Image.checkBound Image.boundWanted
  cases sb
  · simp [ok_bind]
  rw [if_pos rfl, hasDir_bound ho hn, ok_bind]
  by_cases hb : p.HasBound
  · obtain ⟨g1, g2, -⟩ := getDir_stored ho (id := dirBoundImport) hb.1 (boundDir_get ho)
    rw [if_pos (decide_eq_true hb), g1, ok_bind]
    rcases ptr_len hd p.boundDir.1 with ⟨b, o, e1, e2⟩ | ⟨e1, e2⟩
    · rw [e2, ok_bind, g2, ok_bind]
      constructor
      · intro h _ _
        refine ⟨b, o, e1, ?_⟩
        unfold throwIf at h
        split at h
        · cases h
        · omega
      · intro h
        obtain ⟨b', o', e3, h⟩ := h rfl hb
        rw [e1] at e3
        cases e3
        unfold throwIf
        rw [if_neg (by omega)]
    · constructor
      · intro h
        obtain ⟨n, h3, -⟩ := bind_ok_iff.mp h
        exact absurd h3 (e2 n)
      · intro h
        obtain ⟨b', o', e3, h⟩ := h rfl hb
        exact absurd e3 (e1 _)
  · rw [if_neg (by simpa using hb)]
    exact ⟨fun _ _ h => absurd h hb, fun _ => rfl⟩

theorem rebuildHeaders_ok {p : Image} (hs : p.Sized) (fa : Pow2 p.nt.fileAlign) (hn : p.nt.numRva ≠ 0) {strip chg save : Bool}
    (hc : chg = true → ∀ s, p.secs.head? = some s → w32 (p.dataStart strip save) ≤ s.va) :
    ∃ q lf, p.rebuildHeaders strip chg save = .ok (q, lf) := by
  have hd0 : (p.stripDos strip).nt.dirs = p.nt.dirs := by rw [stripDos_nt]
  have hn0 : (p.stripDos strip).nt.numRva = p.nt.numRva := by rw [stripDos_nt]
  have ho : (p.stripDos strip).nt.DirsOk := by rw [stripDos_nt]; exact ⟨hs.dirs.slots, hs.dirs.count⟩
  have hhead : (p.stripDos strip).secs = p.secs := by cases strip <;> rfl
  have hfa' : (p.stripDos strip).nt.fileAlign = p.nt.fileAlign := by cases strip <;> rfl
  have hB : (p.stripDos strip).HasBound ↔ p.HasBound := by
    unfold Image.HasBound; rw [stripDos_boundDir, hn0]
  have hw : (p.stripDos strip).boundWanted save = .ok (save && decide p.HasBound) := by
    unfold Image.boundWanted
    rw [hasDir_bound ho (by rw [hn0]; exact hn)]
    cases save
    · rfl
    · rw [if_pos rfl, Bool.true_and]; congr 1; exact decide_eq_decide.mpr hB
  have hpe : p.tableEnd strip < 4294967296 * 100 := by
    have h1 := hs.stub
    have h2 := hs.secs
    have hc := ceilTo_lt (x := p.stub.length) (a := 4) (by decide)
    have hk : p.kind.sizeofNt = 248 ∨ p.kind.sizeofNt = 264 := by cases p.kind <;> simp [Kind.sizeofNt]
    unfold Image.tableEnd Image.ntStart
    split <;> omega
  have hbs : p.boundSize save < 4294967296 := by
    unfold Image.boundSize; split
    · exact hs.bound
    · decide
  have hpl : ∃ nt, (p.stripDos strip).nt.placeBound (save && decide p.HasBound) (p.tableEnd strip) = .ok (nt, p.tableEnd strip + p.boundSize save) ∧
      nt.fileAlign = p.nt.fileAlign := by
    unfold NtHdr.placeBound
    by_cases h : save = true ∧ p.HasBound
    · have hbd : ((p.stripDos strip).nt.dirs[dirBoundImport]?.getD (0, 0)).2 = p.boundDir.2 := by rw [hd0]; rfl
      rw [if_pos (by simp [h.1, h.2]), setDir_rva ho (by rw [hn0]; exact h.2.1), ok_bind]
      have hgd := getDir_stored (h := { (p.stripDos strip).nt with
          dirs := (p.stripDos strip).nt.dirs.set dirBoundImport (w32 (p.tableEnd strip), ((p.stripDos strip).nt.dirs[dirBoundImport]?.getD (0, 0)).2) }) (DirsOk.set ho _ _)
          (show dirBoundImport < _ by show _ < (p.stripDos strip).nt.numRva; rw [hn0]; exact h.2.1)
          (d := (w32 (p.tableEnd strip), ((p.stripDos strip).nt.dirs[dirBoundImport]?.getD (0, 0)).2))
          (by simp [List.getElem?_set_self (show dirBoundImport < (p.stripDos strip).nt.dirs.length by rw [ho.slots]; decide)])
      rw [hgd.2.1, ok_bind, hbd]
      have hw : w64 (p.tableEnd strip + p.boundDir.2) = p.tableEnd strip + p.boundSize save := by
        unfold Image.boundSize at hbs ⊢
        rw [if_pos h] at hbs ⊢
        exact Nat.mod_eq_of_lt (by omega)
      rw [hw]
      exact ⟨_, rfl, hfa'⟩
    · refine ⟨(p.stripDos strip).nt, ?_, hfa'⟩
      unfold Image.boundSize
      rw [if_neg h, if_neg (by simpa using h)]
      rfl
  obtain ⟨nt, hpl, hnf⟩ := hpl
  unfold Image.rebuildHeaders
  dsimp only
  rw [hw, ok_bind, ptr_calc hs, hpl, ok_bind]
  dsimp only
  rw [hnf, hhead, show alignUp64 (p.tableEnd strip + p.boundSize save) p.nt.fileAlign = p.dataStart strip save from alignUp64_eq fa (by omega)]
  unfold throwIf
  rw [if_neg, ok_bind]
  · exact ⟨_, _, rfl⟩
  · rintro ⟨h1, h2⟩
    cases hh : p.secs.head? with
    | none => rw [hh] at h2; simp at h2
    | some s =>
      rw [hh] at h2
      simp only [Option.any_some, decide_eq_true_eq] at h2
      have := hc h1 s hh
      omega

theorem writeSecs_need (pos : Nat) (l : List Sec) (r : Bytes) (h : writeSecs pos l = .ok r) : ∀ s ∈ l, s.rawSize ≤ s.data.length + 1 := by
  induction l generalizing pos r with
  | nil => intro s hs; cases hs
  | cons s l ih =>
    unfold writeSecs at h
    obtain ⟨b, hb, h⟩ := bind_ok_iff.mp h
    obtain ⟨r', hr, h⟩ := bind_ok_iff.mp h
    intro t ht
    rcases List.mem_cons.mp ht with rfl | ht
    · unfold readN at hb
      split at hb
      · next hle => simpa using hle
      · cases hb
    · exact ih _ _ hr t ht

theorem placeSecs_mem' {fa : Nat} {l : List Sec} : ∀ {ptr : Nat} {s : Sec}, s ∈ l → ∃ x, { s with rawPtr := x } ∈ placeSecs fa ptr l := by
  induction l with
  | nil => intro _ _ h; cases h
  | cons a l ih =>
    intro ptr s h
    unfold placeSecs
    rcases List.mem_cons.mp h with rfl | h
    · split
      · exact ⟨_, List.mem_cons_self ..⟩
      · exact ⟨s.rawPtr, List.mem_cons_self ..⟩
    · split
      · obtain ⟨x, hx⟩ := ih (ptr := w64 (ptr + a.alignedRS fa)) h; exact ⟨x, List.mem_cons_of_mem _ hx⟩
      · obtain ⟨x, hx⟩ := ih (ptr := ptr) h; exact ⟨x, List.mem_cons_of_mem _ hx⟩

theorem boundBytes_iff {p : Image} (hs : p.Sized) (hn : p.nt.numRva ≠ 0) (strip chg save : Bool) (ht : p.tableEnd strip < 4294967296) (rva : Nat) :
    (∃ b, (rebuiltImage p strip chg save).boundBytes save rva = .ok b) ↔
    (save = true → p.HasBound → ∃ b o, p.ptrFromRva rva .raw true = .ok (b, o) ∧ o + p.boundDir.2 ≤ b.length) := by
  have hdo := rebuilt_dirsOk hs strip chg save
  have hnq : (rebuiltImage p strip chg save).nt.numRva ≠ 0 := hn
  unfold Image.boundBytes Image.boundWanted
  cases save
  · simp [ok_bind]
  rw [if_pos rfl, hasDir_bound hdo hnq, ok_bind]
  by_cases hb : p.HasBound
  · have hdir : (rebuiltImage p strip chg true).nt.dirs[dirBoundImport]? = some (p.tableEnd strip, p.boundDir.2) := by
      rw [rebuilt_dirs, if_pos ⟨rfl, hb⟩, w32_id' ht]
      exact List.getElem?_set_self (by rw [hs.dirs.slots]; decide)
    obtain ⟨g1, g2, g3⟩ := getDir_stored hdo (id := dirBoundImport) hb.1 hdir
    have hpos := tableEnd_pos p strip
    have hqb : (rebuiltImage p strip chg true).HasBound := by
      refine ⟨hb.1, ?_⟩
      have : (rebuiltImage p strip chg true).boundDir = (p.tableEnd strip, p.boundDir.2) := by
        unfold Image.boundDir; exact congrArg (fun x => Option.getD x (0, 0)) hdir
      rw [this]; dsimp only; omega
    rw [if_pos (decide_eq_true hqb), rebuilt_ptrFromRva]
    constructor
    · rintro ⟨b, h⟩ _ _
      obtain ⟨⟨bb, o⟩, hptr, h⟩ := bind_ok_iff.mp h
      dsimp only at h
      rw [g2, ok_bind] at h
      unfold readN at h
      split at h
      · next hle => exact ⟨bb, o, hptr, hle⟩
      · cases h
    · intro h
      obtain ⟨b, o, hptr, hle⟩ := h rfl hb
      rw [hptr, ok_bind]
      dsimp only
      rw [g2, ok_bind, readN_ok hle]
      exact ⟨_, rfl⟩
  · have hqb : ¬ (rebuiltImage p strip chg true).HasBound := by
      unfold Image.HasBound Image.boundDir
      rw [rebuilt_dirs, if_neg (fun h => hb h.2)]
      exact hb
    rw [if_neg (by simpa using hqb)]
    exact ⟨fun _ _ h => absurd h hb, fun _ => ⟨_, rfl⟩⟩

/-- C18: `rebuild_pe` succeeds exactly if the bound import directory is readable (when it is to be kept), the headers
    written fit in front of the first section (when their size is updated) and every section holds the raw data its
    header announces (the terminating zero of the string counts). -/
theorem C18_completes_iff (p : Image) (strip chg sb : Bool) (hs : p.Sized) (fa : Pow2 p.nt.fileAlign) (hn : p.nt.numRva ≠ 0)
    (hd : p.DataSmall) (ht : p.tableEnd strip < 4294967296) :
    (∃ q out, p.rebuildPe strip chg sb = .ok (q, out)) ↔
    p.BoundReadable sb ∧ (chg = true → ∀ s, p.secs.head? = some s → w32 (p.dataStart strip (p.savesBound sb)) ≤ s.va) ∧
      ∀ s ∈ p.secs, s.rawSize ≤ s.data.length + 1 := by
  constructor
  · rintro ⟨q, out, h⟩
    obtain ⟨-, e1, e2, bound, data, e3, e4, -⟩ := rebuildPe_ok hs fa h
    have hcb : p.checkBound sb = .ok () := by
      unfold Image.rebuildPe at h
      obtain ⟨_, h1, -⟩ := bind_ok_iff.mp h
      exact h1
    rw [e1] at e3 e4
    refine ⟨?_, e2, ?_⟩
    · intro h1 hb
      obtain ⟨b, o, h2, h3⟩ := (checkBound_iff hs.dirs hn hd sb).mp hcb h1 hb
      refine ⟨b, o, h2, h3, ?_⟩
      intro h4
      obtain ⟨b', o', h5, h6⟩ := (boundBytes_iff hs hn strip chg (p.savesBound sb) ht _).mp ⟨_, e3⟩ h4 hb
      rw [if_pos hb, h2] at h5
      cases h5
      omega
    · intro s hm
      obtain ⟨x, hx⟩ := placeSecs_mem' (fa := p.nt.fileAlign) (ptr := p.dataStart strip (p.savesBound sb)) hm
      have := writeSecs_need _ _ _ e4 { s with rawPtr := x } hx
      exact this
  · rintro ⟨hb, hc, hr⟩
    have hcb : p.checkBound sb = .ok () := (checkBound_iff hs.dirs hn hd sb).mpr (fun h1 h2 => by
      obtain ⟨b, o, h3, h4, -⟩ := hb h1 h2
      exact ⟨b, o, h3, h4⟩)
    obtain ⟨q, lf, hq⟩ := rebuildHeaders_ok hs fa hn hc
    obtain ⟨e1, -, -⟩ := rebuildHeaders_eq hs fa hq
    obtain ⟨bb, hbb⟩ := (boundBytes_iff hs hn strip chg (p.savesBound sb) ht (if p.HasBound then p.boundDir.1 else 0)).mpr (fun h1 h2 => by
      obtain ⟨b, o, h3, h4, h5⟩ := hb (by unfold Image.savesBound at h1; revert h1; cases sb <;> simp) h2
      have := h5 h1
      exact ⟨b, o, by rw [if_pos h2]; exact h3, by omega⟩)
    unfold Image.rebuildPe
    rw [hcb, ok_bind, boundRva_val hs.dirs hn, ok_bind]
    dsimp only
    rw [savesBound_val, hq, ok_bind]
    dsimp only
    have hhb : q.headerBytes = .ok (encFields (ntFields q.kind q.nt) ++ encDirs (q.nt.dirs.take q.nt.numRva) ++ q.secs.flatMap encSec) := by
      unfold Image.headerBytes
      have : q.nt.numRva = p.nt.numRva := by rw [e1]; rfl
      have := hs.dirs.count
      rw [if_neg (by omega)]
    rw [← e1] at hbb
    rw [hhb, ok_bind, hbb, ok_bind]
    obtain ⟨r, hr⟩ := writeSecs_ok (q.dosBytes strip lf ++ (encFields (ntFields q.kind q.nt) ++ encDirs (q.nt.dirs.take q.nt.numRva) ++
      q.secs.flatMap encSec ++ bb)).length q.secs (by
        intro t ht
        rw [e1] at ht
        obtain ⟨s, hs, x, rfl⟩ := placeSecs_mem ht
        exact hr s hs)
    rw [hr, ok_bind]
    exact ⟨_, _, rfl⟩

/-! ### Cases -/

theorem boundImage_sized : boundImage.Sized := ⟨⟨rfl, by decide⟩, by decide, by decide, by decide⟩

theorem boundImage_small : boundImage.DataSmall := ⟨by decide, by decide⟩

/-- The image with bound imports in its headers can be saved ... -/
example : ∃ q out, boundImage.rebuildPe true true true = .ok (q, out) :=
  (C18_completes_iff boundImage true true true boundImage_sized savedImage_pow2 (by decide) boundImage_small (by decide)).mpr
    ⟨fun _ _ => ⟨_, 32, rfl, by decide, fun _ => by decide⟩, by decide +kernel, by decide⟩

/-- ... but not if the directory is one byte longer than the headers (unless bound imports are dropped). -/
example : let p := { boundImage with nt := { boundImage.nt with dirs := boundImage.nt.dirs.set 11 (32, 9) } }
    (∀ q out, p.rebuildPe true true true ≠ .ok (q, out)) ∧ ∃ q out, p.rebuildPe true true false = .ok (q, out) := by
  intro p
  have hs : p.Sized := ⟨⟨rfl, by decide⟩, by decide, by decide, by decide⟩
  have key := fun sb => C18_completes_iff p true true sb hs savedImage_pow2 (by decide) ⟨by decide, by decide⟩ (by decide)
  refine ⟨fun q out h => ?_, (key false).mpr ⟨fun h => (by cases h), by decide +kernel, by decide⟩⟩
  obtain ⟨b, o, h1, h2, -⟩ := ((key true).mp ⟨q, out, h⟩).1 rfl (by decide)
  have e : p.ptrFromRva p.boundDir.1 .raw true = .ok (p.hdrData, 32) := rfl
  rw [e] at h1
  cases h1
  exact absurd h2 (by decide)

end PE
