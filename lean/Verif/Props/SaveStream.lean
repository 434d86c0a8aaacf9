/-
C86: saving an image to a stream.
-/
import Verif.Lemmas.SaveStream
import Verif.Props.Rebuild
namespace PE

/-- The raw pointers are 32-bit values, and none has the largest value. -/
def Image.UsualPointers (q : Image) : Prop := ∀ s ∈ q.secs, s.rawPtr < 4294967295

/-- A stream at its beginning, whatever it contains, whatever its exception mask and its bits other than `badbit`, and
    whatever the medium takes: the call returns, changes the image as described by the other model, a prefix of the file has been
    written, and `badbit` tells whether it is all of it. Nothing is thrown when writing fails. -/
theorem C86_saves_partial (md : Medium) (p q : Image) (strip chg sb : Bool) (file : Bytes) (o : OStream)
    (h : p.rebuildPe strip chg sb = .ok (q, file)) (hb : o.bad = false) (hp : o.pos = 0) (hq : q.UsualPointers) :
    (rebuildPeO md strip chg sb (p, o)).1 = .ok () ∧ (rebuildPeO md strip chg sb (p, o)).2.1 = q ∧
      Wrote o.data 0 file (rebuildPeO md strip chg sb (p, o)).2.2 := by
  obtain ⟨head, data, data', o', h1, h2, h3, h4, h5, h6⟩ := rebuildPeO_ok (md := md) (o := o) h hb (Or.inl hq)
  rw [hp, Nat.zero_add, h2] at h3
  injection h3 with h3
  rw [h4]
  refine ⟨rfl, rfl, ?_⟩
  rw [h1, h3]
  rw [hp] at h5
  exact h5

/-- If the medium takes everything then the file is there, followed by what the stream contained behind it; the stream is
    good, at the end of the file, and does not throw any more. -/
theorem C86_complete_partial (md : Medium) (p q : Image) (strip chg sb : Bool) (file : Bytes) (o : OStream) (hm : md.Unlimited)
    (h : p.rebuildPe strip chg sb = .ok (q, file)) (hb : o.bad = false) (hp : o.pos = 0) (hq : ∀ s ∈ q.secs, s.rawPtr < 4294967296) :
    (rebuildPeO md strip chg sb (p, o)).1 = .ok () ∧ (rebuildPeO md strip chg sb (p, o)).2.1 = q ∧
      (rebuildPeO md strip chg sb (p, o)).2.2.data = file ++ o.data.drop file.length ∧
      (rebuildPeO md strip chg sb (p, o)).2.2.pos = file.length ∧ (rebuildPeO md strip chg sb (p, o)).2.2.good = true ∧
      (rebuildPeO md strip chg sb (p, o)).2.2.mask = 0 := by
  obtain ⟨head, data, data', o', h1, h2, h3, h4, h5, h6⟩ := rebuildPeO_ok (md := md) (o := o) h hb (Or.inr ⟨hm, hq⟩)
  rw [hp, Nat.zero_add, h2] at h3
  injection h3 with h3
  rw [hp, ← h3, ← h1] at h5
  rw [h4]
  obtain ⟨e1, e2⟩ := h5.pos (h6 hm)
  refine ⟨rfl, rfl, ?_, by rw [e1, Nat.zero_add], h5.good_iff.mpr (h6 hm), ?_⟩
  · rw [e2]
    unfold overwrite
    split
    · next hn => rw [hn]; simp
    · rw [Nat.zero_add, show resize o.data 0 = [] by unfold resize; simp [zeros], List.nil_append]
  · obtain ⟨_, _, _, _, _, _, _, hmask⟩ := h5
    exact hmask

/-- Exceptions: the same as those of the headers and of the check of bound imports, whatever the stream (a failed or empty one,
    any mask); nothing has been written and the position is the old one. -/
theorem C86_exceptions (md : Medium) (p : Image) (strip chg sb : Bool) (o : OStream) (hb : o.bad = false) (e : Err) :
    ((rebuildPeO md strip chg sb (p, o)).1 = throwE e ↔ p.rebuildPe strip chg sb = throwE e) ∧
    ((rebuildPeO md strip chg sb (p, o)).1 = throwE e →
      (rebuildPeO md strip chg sb (p, o)).2.1 = (rebuildPeM strip chg sb p).2 ∧
      (rebuildPeO md strip chg sb (p, o)).2.2.data = o.data ∧ (rebuildPeO md strip chg sb (p, o)).2.2.pos = o.pos) := by
  obtain ⟨h1, h2⟩ := rebuildPeO_exn md p strip chg sb o hb e
  refine ⟨h1.trans ?_, h2⟩
  rw [← rebuildPeM_result]
  exact result_error_iff.symm

/-- A bad stream is refused at once. -/
theorem C86_bad (md : Medium) (p : Image) (strip chg sb : Bool) (o : OStream) (hb : o.bad = true) :
    rebuildPeO md strip chg sb (p, o) = (throwE .streamIsBad, p, o) := rebuildPeO_bad md p strip chg sb o hb

theorem slice_overwrite {old b : Bytes} {k i n : Nat} (h : i + n ≤ b.length) : slice (overwrite old k b) (k + i) n = slice b i n := by
  unfold overwrite
  split
  · next hn =>
    rw [hn] at h
    have : n = 0 := by simpa using (show i + n ≤ 0 from h) |> Nat.eq_zero_of_le_zero |> fun x => (Nat.add_eq_zero_iff.mp x).2
    subst this
    unfold slice; simp
  · rw [slice_append_right (by simp), show k + i - (resize old k).length = i by simp, slice_append_left h]

theorem rawOffset_placeSecs (a b : Nat) (l : List Sec) :
    rawOffset a b (placeSecs a b l) (placeSecs a b l).length = rawOffset a b l l.length := by
  unfold rawOffset
  rw [List.take_length, List.take_length]
  congr 1
  suffices ∀ c, ((placeSecs a c l).map (fun s => ceilTo s.rawSize a)) = l.map (fun s => ceilTo s.rawSize a) by rw [this]
  induction l with
  | nil => intro c; rfl
  | cons s l ih => intro c; unfold placeSecs; split <;> simp [ih]

theorem savesBound_eq {p : Image} (hs : p.Sized) {rva : Nat} (h : p.boundRva = .ok rva) (sb : Bool) :
    (sb && !decide (rva ≠ 0 ∧ rva > p.nt.sizeHeaders)) = p.savesBound sb := by
  have hrv := boundRva_eq hs h
  unfold Image.savesBound
  refine congrArg (fun x => sb && !x) ?_
  rw [decide_eq_decide, hrv]
  by_cases hb : p.HasBound
  · rw [if_pos hb]
    exact ⟨fun h => ⟨hb, h.2⟩, fun h => ⟨hb.2, h.2⟩⟩
  · rw [if_neg hb]
    exact ⟨fun h => absurd rfl h.1, fun h => absurd h.1 hb⟩

/-- A stream that is not at its beginning: the headers begin at the current position, but the raw data are at their raw pointers
    counted from the beginning of the stream. -/
theorem C86_elsewhere (md : Medium) (p q : Image) (strip chg sb : Bool) (file : Bytes) (o : OStream) (hm : md.Unlimited)
    (hs : p.Sized) (hp : p.Shaped) (fa : Pow2 p.nt.fileAlign) (hf : p.FileFits strip (p.savesBound sb))
    (hst : NoStalePointers p.nt.fileAlign (p.dataStart strip (p.savesBound sb)) p.secs)
    (h : p.rebuildPe strip chg sb = .ok (q, file)) (hb : o.bad = false)
    (hk : o.pos + (p.tableEnd strip + p.boundSize (p.savesBound sb)) ≤ p.dataStart strip (p.savesBound sb)) :
    slice (rebuildPeO md strip chg sb (p, o)).2.2.data o.pos (p.tableEnd strip + p.boundSize (p.savesBound sb)) =
      file.take (p.tableEnd strip + p.boundSize (p.savesBound sb)) ∧
    ∀ s ∈ q.secs, s.rawSize ≠ 0 →
      slice (rebuildPeO md strip chg sb (p, o)).2.2.data s.rawPtr s.rawSize = resize s.data s.rawSize := by
  obtain ⟨_, e1, _, _⟩ := rebuildPe_ok hs fa h
  obtain ⟨rva, lf, hdr, bound, data, hc, hr, hh, hd, hbd, hw, ho⟩ := rebuildPe_parts h
  have hsv := savesBound_eq hs hr sb
  have hge := rawOffset_ge p.nt.fileAlign (p.dataStart strip (p.savesBound sb)) p.secs p.secs.length
  have hf' : rawOffset p.nt.fileAlign (p.dataStart strip (p.savesBound sb)) p.secs p.secs.length < 4294967296 := hf
  have hbl : bound.length = p.boundSize (p.savesBound sb) := by
    rw [hsv, e1] at hbd
    exact boundBytes_length hs (by have := tableEnd_le_dataStart fa (p := p) strip (p.savesBound sb); omega) hbd
  have hhl := headBytes_length hs hp (strip := strip) (chg := chg) (save := p.savesBound sb) lf bound
  rw [hbl, ← e1] at hhl
  have hhead : q.dosBytes strip lf ++ (hdr ++ bound) = headBytes q strip lf bound := by
    unfold Image.headerBytes at hd
    split at hd
    · simp at hd
    · replace hd := Except.ok.inj hd
      rw [← hd]
      rfl
  have hsecs : q.secs = placeSecs p.nt.fileAlign (p.dataStart strip (p.savesBound sb)) p.secs := by rw [e1]; rfl
  have hpl := placed_placeSecs fa hp.raws hf' hst
  rw [← hsecs] at hpl
  have hptr : ∀ s ∈ q.secs, s.rawPtr < 4294967296 := by
    have : ∀ (l : List Sec) ptr, rawOffset p.nt.fileAlign ptr l l.length < 4294967296 → Placed p.nt.fileAlign ptr l → ∀ s ∈ l, s.rawPtr < 4294967296 := by
      intro l
      induction l with
      | nil => simp
      | cons t l ih =>
        intro ptr hr hpl s hms
        have hlen : (t :: l).length = l.length + 1 := rfl
        rw [hlen, rawOffset_succ] at hr
        have hge := rawOffset_ge p.nt.fileAlign (ptr + ceilTo t.rawSize p.nt.fileAlign) l l.length
        obtain ⟨a, b, c⟩ := hpl
        rcases List.mem_cons.mp hms with rfl | hms
        · by_cases h0 : s.rawSize = 0
          · have := b h0; omega
          · have := a h0; omega
        · exact ih _ hr c s hms
    refine this q.secs _ ?_ hpl
    rw [hsecs, rawOffset_placeSecs]
    exact hf'
  obtain ⟨data', hw'⟩ := writeSecs_anywhere hw (o.pos + (q.dosBytes strip lf ++ (hdr ++ bound)).length)
  obtain ⟨o', h4, h5, h6⟩ := rebuildPeO_parts (md := md) hc hr hh hd hbd hw' hb (Or.inr ⟨hm, hptr⟩)
  obtain ⟨e3, e4⟩ := h5.pos (h6 hm)
  rw [h4]
  show slice o'.data _ _ = _ ∧ ∀ s ∈ q.secs, _ → slice o'.data _ _ = _
  rw [hhead] at e4 hw' ho
  have hne : headBytes q strip lf bound ++ data' ≠ [] := by
    have hpos := tableEnd_pos p strip
    intro hx
    have hlx := congrArg List.length hx
    rw [List.length_append, hhl, List.length_nil] at hlx
    omega
  constructor
  · rw [e4, ← hhl, ho, List.take_append_of_le_length (Nat.le_refl _), List.take_length]
    have := slice_overwrite (old := o.data) (b := headBytes q strip lf bound ++ data') (k := o.pos) (i := 0)
      (n := (headBytes q strip lf bound).length) (by rw [List.length_append]; omega)
    rw [Nat.add_zero] at this
    rw [this, slice_append_left (by omega), slice_zero_length]
  · intro s hms h0
    have hl : (resize o.data o.pos ++ headBytes q strip lf bound).length = o.pos + (headBytes q strip lf bound).length := by simp
    rw [← hl] at hw'
    obtain ⟨_, w2, _⟩ := writeSecs_spec fa.pos hpl (by rw [hl, hhl]; exact hk) hw'
    obtain ⟨w3, w4⟩ := w2 s hms h0
    rw [e4]
    unfold overwrite
    rw [if_neg hne, ← List.append_assoc, ← List.append_assoc, slice_append_left (by rw [List.length_append]; exact w3), w4]

/-! ### Cases -/

/-- A disk with room for 100 bytes: the call returns, the file is cut. -/
theorem C86_silent_case : (rebuildPeO (fun k _ => 100 - k) false true true (savedImage, {})).1 = .ok () ∧
    (rebuildPeO (fun k _ => 100 - k) false true true (savedImage, {})).2.2.data.length = 100 ∧
    (rebuildPeO (fun k _ => 100 - k) false true true (savedImage, {})).2.2.bad = true := by decide +kernel

/-- The exception mask of the stream is lost. -/
theorem C86_mask_case : (rebuildPeO (fun _ n => n) false true true (savedImage, { mask := 4 })).2.2.mask = 0 := by decide +kernel

/-- Appending to a stream with 4 bytes does not append the file: the raw data of the first section are not 4 bytes behind
    their raw pointer. -/
theorem C86_elsewhere_case : ∃ o : OStream, o.good = true ∧ o.pos = 4 ∧ o.data.length = 4 ∧
    (rebuildPeO (fun _ n => n) false true true (savedImage, o)).1 = .ok () ∧
    ((rebuildPeO (fun _ n => n) false true true (savedImage, o)).2.1.secs.map fun s =>
      decide (slice (rebuildPeO (fun _ n => n) false true true (savedImage, o)).2.2.data (4 + s.rawPtr) s.rawSize = s.data)) = [false, false] :=
  ⟨{ data := zeros 4, pos := 4 }, by decide +kernel⟩

/-- A longer old file is not cut. -/
theorem C86_tail_case : (rebuildPeO (fun _ n => n) false true true (savedImage, { data := List.replicate 400 9 })).2.2.data.length = 400 ∧
    (rebuildPeO (fun _ n => n) false true true (savedImage, { data := List.replicate 400 9 })).2.2.data.drop 324 = List.replicate 76 9 := by
  decide +kernel

/-- A section without raw data and with the raw pointer 0xFFFFFFFF, and a disk that is full: the loop does not end. -/
theorem C86_hang_case : ∃ p : Image, (rebuildPeO (fun k _ => 100 - k) false true true (p, {})).1 = ubE .hang :=
  ⟨{ savedImage with secs := [{ tinySec 30 1024 0 4294967295 with data := [] }] }, by decide +kernel⟩

/-! ### The hypotheses are met -/

example : ∃ q file, savedImage.rebuildPe false true true = .ok (q, file) ∧ q.UsualPointers ∧ 0 < file.length := by
  obtain ⟨⟨q, out⟩, h1, h2⟩ := exists_of_okAnd (x := savedImage.rebuildPe false true true)
    (f := fun r => decide (∀ s ∈ r.1.secs, s.rawPtr < 4294967295) && decide (0 < r.2.length)) (by decide +kernel)
  simp only [Bool.and_eq_true, decide_eq_true_eq] at h2
  exact ⟨q, out, h1, h2.1, h2.2⟩

example : Medium.Unlimited fun _ n => n := fun _ n => Nat.le_refl n

example : 4 + (savedImage.tableEnd false + savedImage.boundSize (savedImage.savesBound true)) ≤
    savedImage.dataStart false (savedImage.savesBound true) := by decide

example : ∃ e, (rebuildPeO (fun _ n => n) false true false ({ savedImage with secs := [tinySec 30 16 0 0] }, { data := [1], pos := 1 })).1 = throwE e ∧
    (rebuildPeO (fun _ n => n) false true false ({ savedImage with secs := [tinySec 30 16 0 0] }, { data := [1], pos := 1 })).2.2.data = [1] :=
  ⟨.cannotRebuildImage, by decide +kernel⟩

/-! ### C85: saving that fails, with bound imports -/

/-- `rebuild_pe` that throws: the image has not changed, or the DOS header has been stripped, or (only if the headers are too
    long for the image and bound imports were to be kept) the bound import directory has another address, too. -/
theorem C85_rebuild_pe_all (p : Image) (strip changeSize saveBound : Bool) (e : Err)
    (he : (rebuildPeM strip changeSize saveBound p).1 = throwE e) :
    (rebuildPeM strip changeSize saveBound p).2 = p ∨
    (rebuildPeM strip changeSize saveBound p).2 = p.stripDos strip ∨
    (saveBound = true ∧ e = .cannotRebuildImage ∧ ∃ d, (rebuildPeM strip changeSize saveBound p).2 =
      { p.stripDos strip with nt := { (p.stripDos strip).nt with dirs := (p.stripDos strip).nt.dirs.set dirBoundImport d } }) :=
  rebuildPeM_left he

end PE
