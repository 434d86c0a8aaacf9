/-
C82: replacing, filling and removing the stub overlay.
-/
import Verif.Model.Stub
import Verif.Props.SaveLoad
import Verif.Props.Rich
namespace PE

/-- `b` is `a`, filled up with zero bytes to the next multiple of four. -/
def PaddedTo4 (a b : Bytes) : Prop := ∃ n, n < 4 ∧ 4 ∣ b.length ∧ b = a ++ List.replicate n 0

/-- Two headers agree on everything a saved file does not recompute. -/
def SameHeaders (a b : NtHdr) : Prop :=
  { a with dirs := [], sizeHeaders := 0, sizeImage := 0, sizeOptHdr := 0, numSections := 0 } =
    { b with dirs := [], sizeHeaders := 0, sizeImage := 0, sizeOptHdr := 0, numSections := 0 } ∧
  ∀ i, i < a.numRva → i ≠ 11 → a.dirs[i]? = b.dirs[i]?

/-- C82. The overlay set is the overlay read, in the image at hand and, up to zero padding, in the image loaded from
    the file saved; the PE header starts right behind it. DOS header, headers and sections are those of the
    unchanged image (raw pointers, the sizes of the headers and the bound import directory are recomputed). -/
theorem C82_stub_saved (p q : Image) (data : Bytes) (chg sb strict dbg : Bool) (out : Bytes) (pre : List (Nat × Nat))
    (hp : pre.length = 16) (hd : ∀ d ∈ pre, d.1 < 2 ^ 32) (hv : (p.setStub data).Saveable false chg sb)
    (h : (p.setStub data).rebuildPe false chg sb = .ok (q, out)) :
    (p.setStub data).getStub = data ∧
    ∃ r, load p.kind strict false dbg pre out = .ok r ∧ PaddedTo4 data r.getStub ∧
      r.peHeaderStart = 64 + r.getStub.length ∧ r.getDosHeader = p.getDosHeader ∧
      r.secs.map (fun s => { s with rawPtr := 0 }) = p.secs.map (fun s => { s with rawPtr := 0 }) ∧
      SameHeaders r.nt p.nt := by
  refine ⟨rfl, ?_⟩
  obtain ⟨r, hr, -, hnt, -, hsec, hlf, hst⟩ := C19_save_load _ q false chg sb strict dbg out pre hp hd hv h
  obtain ⟨hdos, hstub⟩ := hst rfl
  have hge := ceilTo_ge (x := data.length) (a := 4) (by decide)
  have hlt := ceilTo_lt (x := data.length) (a := 4) (by decide)
  change r.stub = data ++ List.replicate (ceilTo data.length 4 - data.length) 0 at hstub
  have hlen : r.stub.length = ceilTo data.length 4 := by rw [hstub, List.length_append, List.length_replicate]; omega
  refine ⟨r, hr, ⟨ceilTo data.length 4 - data.length, by omega, ?_, hstub⟩, ?_, hdos, hsec, ?_⟩
  · show 4 ∣ r.stub.length
    rw [hlen]; exact ceilTo_dvd _ _
  · show r.lfanew = 64 + r.stub.length
    rw [hlf, hlen]; rfl
  · obtain ⟨-, e1, -⟩ := rebuildPe_ok hv.sized hv.table.fa h
    have hq : q.nt = rebuiltNt (p.setStub data) false chg ((p.setStub data).savesBound sb) := by rw [e1]; rfl
    have hn : (p.setStub data).nt = p.nt := rfl
    constructor
    · rw [hnt, hq]; rfl
    · intro i hi h11
      have hi' : i < p.nt.numRva := by
        have : r.nt.numRva = p.nt.numRva := by rw [hnt, hq]; rfl
        omega
      have hdl : q.nt.dirs.length = 16 := by
        rw [hq]; show (if _ then _ else _ : List (Nat × Nat)).length = 16
        split
        · rw [List.length_set]; exact hv.sized.dirs.slots
        · exact hv.sized.dirs.slots
      have h16 : p.nt.numRva ≤ 16 := hv.sized.dirs.count
      rw [hnt]
      show (q.nt.dirs.take p.nt.numRva ++ _)[i]? = _
      rw [List.getElem?_append_left (by rw [List.length_take]; omega), List.getElem?_take_of_lt hi', hq]
      show (if _ then _ else _ : List (Nat × Nat))[i]? = _
      split
      · rw [List.getElem?_set_ne (fun e => h11 e.symm)]; rfl
      · rfl

theorem ntStart_setStub {p : Image} {data : Bytes} (hl : data.length ≤ p.stub.length) :
    (p.setStub data).ntStart false ≤ p.ntStart false := by
  have := ceilTo_mono (a := 4) (by decide) hl
  show 64 + ceilTo data.length 4 ≤ 64 + ceilTo p.stub.length 4
  omega

theorem dataStart_setStub {p : Image} {data : Bytes} (hl : data.length ≤ p.stub.length) (fa : Pow2 p.nt.fileAlign)
    (save : Bool) : (p.setStub data).dataStart false save ≤ p.dataStart false save := by
  have := ntStart_setStub hl
  refine ceilTo_mono fa.pos ?_
  show (p.setStub data).ntStart false + _ + _ + _ ≤ p.ntStart false + _ + _ + _
  exact Nat.add_le_add_right (Nat.add_le_add_right (Nat.add_le_add_right this _) _) _

/-- C82. An overlay that is not longer than the old one always fits: an image that can be saved still can. (Sections
    without raw data have no raw pointer, as after opening or adding them.) -/
theorem C82_shorter (p : Image) (data : Bytes) (chg sb : Bool) (hl : data.length ≤ p.stub.length)
    (hz : ∀ s ∈ p.secs, s.rawSize = 0 → s.rawPtr = 0) (hv : p.Saveable false chg sb) :
    (p.setStub data).Saveable false chg sb ∧
    (p.nt.numRva ≠ 0 → ¬ p.HasBound → (∃ q out, p.rebuildPe false chg sb = .ok (q, out)) →
      ∃ q out, (p.setStub data).rebuildPe false chg sb = .ok (q, out)) := by
  have fa := hv.table.fa
  have hds := dataStart_setStub hl fa (p.savesBound sb)
  have hsz : (p.setStub data).Sized := ⟨hv.sized.dirs, Nat.lt_of_le_of_lt hl hv.sized.stub, hv.sized.secs, hv.sized.bound⟩
  constructor
  · refine ⟨hsz, ⟨hv.shaped.dos, hv.shaped.names, hv.shaped.raws⟩, hv.mz, Nat.le_trans hl hv.stub, hv.sig, hv.magic,
      hv.ntRange, hv.dirsRange, hv.rel, ?_, hv.some, hv.secRange, hv.sizes, hv.below, ?_, ?_⟩
    · obtain ⟨a1, a2, a3, a4, a5, a6, a7, a8, a9, a10⟩ := hv.table
      exact ⟨a1, a2, a3, a4, a5, a6, a7, a8, a9, a10⟩
    · intro i s hi h0
      rw [hz s (List.mem_of_getElem? hi) h0]
      exact Nat.zero_le _
    · have := hv.fits
      unfold Image.FileFits at this ⊢
      refine Nat.lt_of_le_of_lt ?_ this
      show rawOffset p.nt.fileAlign ((p.setStub data).dataStart false (p.savesBound sb)) p.secs p.secs.length ≤ _
      unfold rawOffset
      exact Nat.add_le_add_right hds _
  · intro hn hb ⟨q, out, h⟩
    refine C18_completes _ false chg sb hsz fa hn hb ?_ ?_
    · intro s hs
      have := (hv.sizes s hs).1
      omega
    · intro hc s hs
      obtain ⟨hq, -, -⟩ := rebuildPe_ok hv.sized fa h
      obtain ⟨-, -, e2⟩ := rebuildHeaders_eq hv.sized fa hq
      have h2 := e2 hc s hs
      have hbs : ∀ sv, p.dataStart false sv = p.dataStart false false := by
        intro sv
        unfold Image.dataStart Image.boundSize
        rw [if_neg (fun x => hb x.2), if_neg (fun x => hb x.2)]
      have hlt : p.dataStart false (p.savesBound sb) < 4294967296 := by
        have h1 := hv.fits
        unfold Image.FileFits at h1
        have := rawOffset_ge p.nt.fileAlign (p.dataStart false (p.savesBound sb)) p.secs p.secs.length
        omega
      have hds' := dataStart_setStub hl fa false
      rw [hbs] at h2 hlt
      unfold w32 at h2
      omega

/-- C82. Stripping is setting the empty overlay, filling is setting one of the same length: after `strip_stub_overlay`
    there is no overlay, after `fill_stub_overlay` each of its bytes is `c`, and an image that can be saved still can. -/
theorem C82_strip_fill (p : Image) (c : UInt8) (chg sb : Bool) (hz : ∀ s ∈ p.secs, s.rawSize = 0 → s.rawPtr = 0) :
    p.stripStub.getStub = [] ∧ p.stripStub = p.setStub [] ∧
    (p.fillStub c).getStub.length = p.getStub.length ∧ (∀ x ∈ (p.fillStub c).getStub, x = c) ∧
    (∃ d, p.fillStub c = p.setStub d) ∧
    (p.Saveable false chg sb → p.stripStub.Saveable false chg sb ∧ (p.fillStub c).Saveable false chg sb) := by
  have hf : p.fillStub c = p.setStub (List.replicate p.stub.length c) := by
    unfold Image.fillStub
    split
    · rfl
    · next h =>
      have : p.stub = [] := List.length_eq_zero_iff.mp (by omega)
      unfold Image.setStub
      rw [this]
      show p = { p with stub := [] }
      rw [← this]
  refine ⟨rfl, rfl, ?_, ?_, ⟨_, hf⟩, fun hv => ⟨(C82_shorter p [] chg sb (Nat.zero_le _) hz hv).1, ?_⟩⟩
  · rw [hf]; exact List.length_replicate
  · rw [hf]; exact fun x hx => (List.mem_replicate.mp hx).2
  · rw [hf]; exact (C82_shorter p _ chg sb (by rw [List.length_replicate]; exact Nat.le_refl _) hz hv).1

/-- C82. A Rich header put into the overlay is found again, also in the file saved and opened. -/
theorem C82_rich_set (p q : Image) (lead post : Bytes) (key : Nat) (rs : List RichRec) (chg sb strict dbg : Bool)
    (out : Bytes) (pre : List (Nat × Nat)) (hp : pre.length = 16) (hd : ∀ d ∈ pre, d.1 < 2 ^ 32)
    (hkey : key < 4294967296) (hr : ∀ r ∈ rs, r.InRange)
    (hrich : NoWordBefore (richStub lead key rs post) (lead.length + 16 + 8 * rs.length) 0x68636952)
    (hdans : NoWordBefore (richStub lead key rs post) lead.length (0x536e6144 ^^^ key))
    (hv : (p.setStub (richStub lead key rs post)).Saveable false chg sb)
    (h : (p.setStub (richStub lead key rs post)).rebuildPe false chg sb = .ok (q, out)) :
    richOf (p.setStub (richStub lead key rs post)).getStub = .ok rs ∧
    ∃ r, load p.kind strict false dbg pre out = .ok r ∧ richOf r.getStub = .ok rs := by
  obtain ⟨-, r, hl, ⟨n, -, -, hb⟩, -⟩ := C82_stub_saved p q _ chg sb strict dbg out pre hp hd hv h
  refine ⟨C48_exact_partial hkey hr hrich hdans, r, hl, ?_⟩
  have e : richStub lead key rs post ++ List.replicate n 0 = richStub lead key rs (post ++ List.replicate n 0) := by
    unfold richStub; simp only [List.append_assoc]
  have hwl : ∀ l : List RichRec, (l.flatMap RichRec.words).length = 2 * l.length := by
    intro l; induction l with
    | nil => rfl
    | cons a l ih => simp [RichRec.words, ih]; omega
  have hlen : lead.length + 16 + 8 * rs.length + 8 ≤ (richStub lead key rs post).length := by
    unfold richStub richBody
    simp only [List.length_append, encWords_length, List.length_map, hwl, List.length_cons, List.length_nil]
    omega
  rw [hb, e]
  refine C48_exact_partial hkey hr ?_ ?_ <;>
  · intro i hi
    rw [← e, rd_left (by omega)]
    first | exact hrich i hi | exact hdans i hi

/-- C82. Without an overlay there is no Rich header, also in the file saved and opened. -/
theorem C82_rich_stripped (p q : Image) (chg sb strict dbg : Bool) (out : Bytes) (pre : List (Nat × Nat))
    (hp : pre.length = 16) (hd : ∀ d ∈ pre, d.1 < 2 ^ 32) (hv : p.stripStub.Saveable false chg sb)
    (h : p.stripStub.rebuildPe false chg sb = .ok (q, out)) :
    richOf p.stripStub.getStub = .ok [] ∧
    ∃ r, load p.kind strict false dbg pre out = .ok r ∧ r.getStub = [] ∧ richOf r.getStub = .ok [] := by
  obtain ⟨-, r, hl, ⟨n, h1, h2, hb⟩, -⟩ := C82_stub_saved p q [] chg sb strict dbg out pre hp hd hv h
  have hr : r.getStub = [] := by
    rw [hb] at h2 ⊢
    rw [List.nil_append, List.length_replicate] at h2
    have : n = 0 := by omega
    subst this; rfl
  exact ⟨C48_short (show 0 < 4 by decide), r, hl, hr, by rw [hr]; exact C48_short (by decide)⟩

/-- A word whose two low bytes are equal, or the second zero, is not "Rich". -/
theorem rd_not_rich {b : Bytes} {i : Nat} {x y : UInt8} (hx : b[i]? = some x)
    (hy : b[i + 1]? = some y) (hxy : y = x ∨ y = 0) : rd 4 b i ≠ 0x68636952 := by
  have hs : slice b i 4 = x :: y :: slice b (i + 2) 2 := by
    unfold slice
    obtain ⟨h0, rfl⟩ := List.getElem?_eq_some_iff.mp hx
    obtain ⟨h1, rfl⟩ := List.getElem?_eq_some_iff.mp hy
    rw [List.drop_eq_getElem_cons h0, List.drop_eq_getElem_cons h1]
    rfl
  unfold rd
  rw [hs]
  have hx' := x.toNat_lt
  intro e
  have e2 : x.toNat + 256 * (y.toNat + 256 * fromLE (slice b (i + 2) 2)) = 0x68636952 := e
  rcases hxy with rfl | rfl
  · omega
  · change x.toNat + 256 * (0 + _) = _ at e2
    omega

/-- C82 fails for the Rich header of a filled overlay: instead of finding none, `get_rich_data` reads behind the end
    of the overlay, for every overlay of four bytes or more, whatever the fill byte is; also after saving and opening. -/
theorem C82_fill_overread (p : Image) (c : UInt8) (h4 : 4 ≤ p.stub.length) :
    richOf (p.fillStub c).getStub = ubE .oobRead ∧
    ∀ b, PaddedTo4 (p.fillStub c).getStub b → richOf b = ubE .oobRead := by
  have hf : (p.fillStub c).getStub = List.replicate p.stub.length c := by
    unfold Image.fillStub; rw [if_pos (by omega)]; rfl
  have key : ∀ n, richOf (List.replicate p.stub.length c ++ List.replicate n 0) = ubE .oobRead := by
    intro n
    refine C48_no_marker_overread (by simp; omega) ?_
    intro i hi
    have hb : List.replicate p.stub.length c ++ List.replicate n 0 ++ [0] =
        List.replicate p.stub.length c ++ List.replicate (n + 1) 0 := by
      rw [List.append_assoc, List.replicate_succ']
    rw [hb]
    simp only [List.length_append, List.length_replicate] at hi
    have hget : ∀ j, j < p.stub.length + n + 1 →
        (List.replicate p.stub.length c ++ List.replicate (n + 1) 0)[j]? = some (if j < p.stub.length then c else 0) := by
      intro j hj
      split
      · next h => rw [List.getElem?_append_left (by simpa using h), List.getElem?_replicate_of_lt h]
      · next h =>
        rw [List.getElem?_append_right (by simpa using h), List.length_replicate,
          List.getElem?_replicate_of_lt (by omega)]
    refine rd_not_rich (hget i (by omega)) (hget (i + 1) (by omega)) ?_
    by_cases h1 : i + 1 < p.stub.length
    · rw [if_pos h1, if_pos (by omega)]; exact .inl rfl
    · rw [if_neg h1]; exact .inr rfl
  constructor
  · rw [hf]
    have := key 0
    rwa [List.replicate_zero, List.append_nil] at this
  · rintro b ⟨n, -, -, rfl⟩
    rw [hf]
    exact key n

/-! ### Examples -/

/-- An overlay of 48 bytes with a Rich header of two records. -/
def richSample : Bytes := richStub [0x0e, 0x1f, 0xba, 0x0e, 0x00] 0x9B7A4C31 sampleRich [0, 0, 0]

/-- The image of `savedImage` with a Rich header in its overlay. -/
def stubImage : Image := savedImage.setStub richSample

theorem stubImage_saveable : stubImage.Saveable false true true := by
  obtain ⟨⟨a1, a2, a3, a4⟩, b, c1, -, c3, c4, c5, c6, c7, c8, c9, c10, c11, c12, -, -⟩ := savedImage_saveable
  obtain ⟨t1, t2, t3, t4, t5, t6, t7, t8, t9, t10⟩ := c8
  refine ⟨⟨a1, by decide +kernel, a3, a4⟩, ⟨b.dos, b.names, b.raws⟩, c1, by decide +kernel, c3, c4, c5, c6, c7,
    ⟨t1, t2, t3, t4, t5, t6, t7, t8, t9, t10⟩, c9, c10, c11, c12, ?_, by decide +kernel⟩
  intro i s hi h0
  have hm := List.mem_of_getElem? hi
  simp only [stubImage, Image.setStub, savedImage, List.mem_cons, List.not_mem_nil, or_false] at hm
  rcases hm with rfl | rfl <;> exact absurd h0 (by decide)

theorem stubImage_rebuilds : ∃ q out, stubImage.rebuildPe false true true = .ok (q, out) := by
  obtain ⟨⟨q, out⟩, h1, -⟩ := exists_of_okAnd (x := stubImage.rebuildPe false true true) (f := fun _ => true) (by decide +kernel)
  exact ⟨q, out, h1⟩

example : ∃ q out r, (savedImage.setStub richSample).rebuildPe false true true = .ok (q, out) ∧
    load .pe32 true false true (List.replicate 16 (0, 0)) out = .ok r ∧ richOf r.getStub = .ok sampleRich := by
  obtain ⟨q, out, h⟩ := stubImage_rebuilds
  obtain ⟨-, r, h1, h2⟩ := C82_rich_set savedImage q [0x0e, 0x1f, 0xba, 0x0e, 0x00] [0, 0, 0] 0x9B7A4C31 sampleRich true true
    true true out (List.replicate 16 (0, 0)) rfl (by decide) (by decide) (by intro r hr; revert hr; revert r; unfold RichRec.InRange; decide)
    (by intro i hi; revert hi; revert i; decide +kernel) (by intro i hi; revert hi; revert i; decide +kernel) stubImage_saveable h
  exact ⟨q, out, r, h, h1, h2⟩

theorem stubImage_zero : ∀ s ∈ stubImage.secs, s.rawSize = 0 → s.rawPtr = 0 := by
  intro s hm h0
  simp only [stubImage, Image.setStub, savedImage, List.mem_cons, List.not_mem_nil, or_false] at hm
  rcases hm with rfl | rfl <;> exact absurd h0 (by decide)

example : stubImage.stripStub.Saveable false true true ∧ (∃ q out, stubImage.stripStub.rebuildPe false true true = .ok (q, out)) ∧
    (stubImage.fillStub 0xCC).Saveable false true true := by
  obtain ⟨-, -, -, -, -, h⟩ := C82_strip_fill stubImage 0xCC true true stubImage_zero
  exact ⟨(h stubImage_saveable).1, (C82_shorter stubImage [] true true (Nat.zero_le _) stubImage_zero stubImage_saveable).2
    (by decide) (by decide) stubImage_rebuilds, (h stubImage_saveable).2⟩

example : 4 ≤ stubImage.stub.length ∧ richOf (stubImage.fillStub 0x52).getStub = ubE .oobRead :=
  ⟨by decide +kernel, (C82_fill_overread stubImage 0x52 (by decide +kernel)).1⟩

end PE
