/-
Helper lemmas: what an image looks like after a rebuilder put its data into a section.
-/
import Verif.Spec.Host
import Verif.Lemmas.Edit
import Verif.Props.Rva
namespace PE

theorem stripKeepOne_zeros (l : Bytes) : ∃ k, l = zeros k ++ stripKeepOne l := by
  induction l with
  | nil => exact ⟨0, rfl⟩
  | cons b t ih =>
    cases t with
    | nil => exact ⟨0, rfl⟩
    | cons c t =>
      unfold stripKeepOne
      split
      · next h =>
        obtain ⟨k, hk⟩ := ih
        refine ⟨k + 1, ?_⟩
        rw [h]
        conv => lhs; rw [hk]
        rfl
      · exact ⟨0, rfl⟩

theorem strip_zeros (d : Bytes) : ∃ k, d = (stripKeepOne d.reverse).reverse ++ zeros k := by
  obtain ⟨k, hk⟩ := stripKeepOne_zeros d.reverse
  refine ⟨k, ?_⟩
  have := congrArg List.reverse hk
  simp only [List.reverse_reverse, List.reverse_append] at this
  rw [show (zeros k).reverse = zeros k by simp [zeros]] at this
  exact this

theorem Contig.set_mid {a : Nat} {l : List Sec} {i : Nat} {x y : Sec} (h : Contig a l) (hx : l[i]? = some x)
    (hv : y.va = x.va) (hs : i + 1 < l.length → y.span a = x.span a) : Contig a (l.set i y) := by
  induction l generalizing i with
  | nil => simp at hx
  | cons z l ih =>
    cases i with
    | zero =>
      simp only [List.getElem?_cons_zero, Option.some.injEq] at hx
      subst hx
      cases l with
      | nil => trivial
      | cons w l => exact ⟨by rw [hv, hs (by simp)]; exact h.1, h.2⟩
    | succ i =>
      simp only [List.getElem?_cons_succ] at hx
      cases l with
      | nil => simp at hx
      | cons w l =>
        have := ih h.2 hx (fun hh => hs (by simpa using hh))
        cases i with
        | zero =>
          simp only [List.getElem?_cons_zero, Option.some.injEq] at hx
          exact ⟨by rw [hv, ← hx]; exact h.1, this⟩
        | succ i => exact ⟨h.1, this⟩

/-- The image shows the bytes `m` at rva `va` (inside section `s`) through its virtual-mode accessors. -/
structure Window (p : Image) (va : Nat) (m : Bytes) (s : Sec) : Prop where
  fin : va + m.length < 2 ^ 32
  sva : s.va = va
  smem : s ∈ p.secs
  sec : ∀ off, off < m.length → p.sectionFromRva (va + off) = .ok s
  readT : ∀ hdrs off n, off < m.length → off + n ≤ m.length →
    p.readT n (va + off) .virt hdrs = .ok (slice m off n)
  ptr : ∀ hdrs off, off < m.length → p.ptrFromRva (va + off) .virt hdrs = .ok (m, off)
  len : ∀ hdrs off, off < m.length → p.dataLenFrom (va + off) (va + off) .virt hdrs = .ok (m.length - off)

theorem window_of_valid {p : Image} {i : Nat} {s : Sec} (hv : ValidTable p) (hs : p.secs[i]? = some s)
    (hh : p.hdrData.length ≤ s.va) (hd : s.data.length ≤ s.span p.nt.secAlign) :
    Window p s.va (s.memory p.nt.secAlign) s := by
  have hm : s ∈ p.secs := List.mem_of_getElem? hs
  have hf := hv.fits s hm
  have hfin := hf.fin
  have hml : (s.memory p.nt.secAlign).length = s.span p.nt.secAlign := by
    unfold Sec.memory; simp; omega
  have hsec : ∀ off, off < (s.memory p.nt.secAlign).length → p.sectionFromRva (s.va + off) = .ok s := by
    intro off ho
    exact C06_unique p hv.sa hv.fits hv.contig.disjoint _ s hm ⟨by omega, by omega⟩
  have hview : s.view .virt p.nt.secAlign = s.memory p.nt.secAlign := Sec.view_eq_contents hv.sa hf .virt
  refine ⟨by omega, rfl, hm, hsec, ?_, ?_, ?_⟩
  · intro hdrs off n ho hn
    unfold Image.readT
    rw [if_neg (by rintro ⟨_, _, h⟩; omega), hsec off ho, ok_bind]
    dsimp only
    rw [hview, sub32_of_le (by omega) (by omega), show s.va + off - s.va = off by omega, if_neg (by omega),
      readN_ok hn]
  · intro hdrs off ho
    unfold Image.ptrFromRva
    rw [if_neg (by rintro ⟨_, h⟩; omega), hsec off ho, ok_bind, hview, show s.va + off - s.va = off by omega]
  · intro hdrs off ho
    unfold Image.dataLenFrom
    rw [if_neg (by rintro ⟨_, h, _⟩; omega), hsec off ho, ok_bind, if_neg (by omega)]
    show Except.ok (w32 (s.alignedVS p.nt.secAlign + s.va - (s.va + off))) = _
    rw [Sec.alignedVS_eq hv.sa hf, hml, w32, Nat.mod_eq_of_lt (by omega)]
    congr 1; omega

/-- `Window` depends on the sections, the header bytes and the section alignment only. -/
theorem Window.congr {p q : Image} {va : Nat} {m : Bytes} {s : Sec} (h : Window p va m s) (h1 : q.secs = p.secs)
    (h2 : q.hdrData = p.hdrData) (h3 : q.nt.secAlign = p.nt.secAlign) : Window q va m s := by
  have hsec : ∀ r, q.sectionFromRva r = p.sectionFromRva r := by
    intro r; unfold Image.sectionFromRva; rw [h1, h3]
  exact {
    fin := h.fin, sva := h.sva
    smem := by rw [h1]; exact h.smem
    sec := fun off ho => by rw [hsec]; exact h.sec off ho
    readT := fun hdrs off n ho hn => by
      rw [← h.readT hdrs off n ho hn]; unfold Image.readT; rw [hsec, h2, h3]
    ptr := fun hdrs off ho => by rw [← h.ptr hdrs off ho]; unfold Image.ptrFromRva; rw [hsec, h2, h3]
    len := fun hdrs off ho => by rw [← h.len hdrs off ho]; unfold Image.dataLenFrom; rw [hsec, h2, h3] }

theorem ValidTable.congr {p q : Image} (h : ValidTable p) (h1 : q.secs = p.secs)
    (h3 : q.nt.secAlign = p.nt.secAlign) (h4 : q.nt.fileAlign = p.nt.fileAlign)
    (h5 : q.nt.numSections = p.nt.numSections) : ValidTable q := by
  obtain ⟨a, b, c, d, e, f, g, i, j, k⟩ := h
  constructor <;> rw [h1] at * <;> simp only [h3, h4, h5] at * <;> assumption

theorem ValidTable.congr' {p q : Image} (h : ValidTable p) (h1 : q.secs = p.secs)
    (h3 : q.nt.secAlign = p.nt.secAlign) (h4 : q.nt.fileAlign = p.nt.fileAlign)
    (h5 : q.nt.numSections = p.nt.numSections) : ValidTable q := h.congr h1 h3 h4 h5

/-- Reading an integer through a window. -/
theorem Window.readInt {p : Image} {va : Nat} {m : Bytes} {s : Sec} (h : Window p va m s) (hdrs : Bool) {off n : Nat}
    (ho : off < m.length) (hn : off + n ≤ m.length) :
    p.readInt n (va + off) .virt hdrs = .ok (rd n m off) := by
  unfold Image.readInt
  rw [h.readT hdrs off n ho hn]; rfl

theorem ceilTo_room {n sa fa : Nat} (hsa : Pow2 sa) (hfa : Pow2 fa) (hle : fa ≤ sa) :
    ceilTo n fa ≤ ceilTo n sa := ceilTo_le_ceilTo hfa.pos hsa.pos (hfa.dvd_of_le hsa hle)

/-- Room for `n` bytes is room for `n` rounded up to the file alignment. -/
theorem HostRoom.ceil {p : Image} {i : Nat} {s : Sec} {n : Nat} (hv : ValidTable p) (h : HostRoom p i s n) :
    HostRoom p i s (ceilTo n p.nt.fileAlign) := by
  unfold HostRoom at h ⊢
  split
  · next hc =>
    rw [if_pos hc] at h
    rw [ceilTo_ceilTo hv.fa.pos hv.sa.pos (hv.fa.dvd_of_le hv.sa hv.le)]
    exact h
  · next hc =>
    rw [if_neg hc] at h
    exact ⟨h.1, ceilTo_least hv.fa.pos (ceilTo_dvd _ _) h.2⟩

theorem HostRoom.mono {p : Image} {i : Nat} {s : Sec} {m n : Nat} (hv : ValidTable p) (h : HostRoom p i s n)
    (hm : m ≤ n) : HostRoom p i s m := by
  unfold HostRoom at h ⊢
  split
  · next hc =>
    rw [if_pos hc] at h
    have := ceilTo_mono (a := p.nt.secAlign) hv.sa.pos hm
    omega
  · next hc =>
    rw [if_neg hc] at h
    exact ⟨h.1, by omega⟩

theorem HostRoom.lt {p : Image} {i : Nat} {s : Sec} {n : Nat} (h : Host p i s) (hr : HostRoom p i s n) :
    s.va + n < 2 ^ 32 ∧ s.va + ceilTo n p.nt.fileAlign < 2 ^ 32 := by
  have hv := h.valid
  have hm := List.mem_of_getElem? h.sec
  have hf := (hv.fits s hm).fin
  have hr2 := hr.ceil hv
  have h1 := ceilTo_ge (x := n) hv.fa.pos
  have h2 := ceilTo_ge (x := ceilTo n p.nt.fileAlign) hv.sa.pos
  have h3 := h.raw
  unfold HostRoom at hr2
  split at hr2
  · omega
  · omega

/-- The section after `recalculate_section_sizes`. -/
def hosted (p : Image) (i : Nat) (s : Sec) (d : Bytes) (strip : Bool) : Sec :=
  let t := ({ s with data := d } : Sec).prepared p.nt.fileAlign p.nt.secAlign
  if strip = true ∧ i + 1 ≠ p.secs.length then
    { t with data := (stripKeepOne d.reverse).reverse, rawSize := (stripKeepOne d.reverse).reverse.length }
  else t

theorem Host.need_eq {p : Image} {i : Nat} {s : Sec} {d : Bytes} (h : Host p i s)
    (hge : s.data.length ≤ d.length) (hroom : HostRoom p i s d.length) :
    (i + 1 < p.secs.length → ({ s with data := d } : Sec).need p.nt.secAlign = s.span p.nt.secAlign) ∧
    s.va + ({ s with data := d } : Sec).need p.nt.secAlign < 2 ^ 32 ∧
    d.length ≤ ({ s with data := d } : Sec).need p.nt.secAlign := by
  have hv := h.valid
  have hm := List.mem_of_getElem? h.sec
  have hf := (hv.fits s hm).fin
  have hd := hv.fa.dvd_of_le hv.sa hv.le
  have hpages := hv.pages s hm
  have hraw := h.raw
  have hneed : ({ s with data := d } : Sec).need p.nt.secAlign =
      max (ceilTo d.length p.nt.secAlign) (ceilTo s.vsize p.nt.secAlign) := ceilTo_max hv.sa.pos
  have hge1 := ceilTo_ge (x := d.length) hv.sa.pos
  have hspan : s.span p.nt.secAlign = ceilTo (if s.vsize = 0 then s.rawSize else s.vsize) p.nt.secAlign := rfl
  rw [hneed]
  have hvz : s.vsize = 0 → ceilTo s.vsize p.nt.secAlign = 0 := by intro h0; rw [h0, ceilTo_zero]
  have hkey : d.length ≤ ceilTo s.rawSize p.nt.fileAlign →
      max (ceilTo d.length p.nt.secAlign) (ceilTo s.vsize p.nt.secAlign) = s.span p.nt.secAlign := by
    intro hr
    have hup : ceilTo d.length p.nt.secAlign ≤ s.span p.nt.secAlign :=
      ceilTo_least hv.sa.pos (by rw [hspan]; exact ceilTo_dvd _ _) (by omega)
    by_cases h0 : s.vsize = 0
    · have h1 := hpages.2 h0
      have h2 := ceilTo_mono (a := p.nt.secAlign) hv.sa.pos hge
      rw [if_pos h0] at hspan
      have := hvz h0
      omega
    · rw [if_neg h0] at hspan
      omega
  unfold HostRoom at hroom
  refine ⟨?_, ?_, by omega⟩
  · intro hlt
    rw [if_neg (by omega)] at hroom
    exact hkey hroom.2
  · split at hroom
    · by_cases h0 : s.vsize = 0
      · have := hvz h0; omega
      · rw [if_neg h0] at hspan; omega
    · rw [hkey hroom.2]; exact hf

theorem recalc_host {p : Image} {i : Nat} {s : Sec} {d : Bytes} (strip : Bool) (h : Host p i s) (hne : d ≠ [])
    (hge : s.data.length ≤ d.length) (hroom : HostRoom p i s d.length) :
    ({ p with secs := p.secs.set i { s with data := d } } : Image).recalculateSectionSizes i strip =
      .ok { p with secs := p.secs.set i (hosted p i s d strip) } := by
  have hv := h.valid
  have hm := List.mem_of_getElem? h.sec
  have hf := hv.fits s hm
  have hi : i < p.secs.length := by
    have := h.sec; rw [List.getElem?_eq_some_iff] at this; exact this.1
  obtain ⟨-, hn2, hn3⟩ := h.need_eq hge hroom
  have hprep := prepareSection_eq (s := { s with data := d }) hv.fa hv.sa hv.le hf.vsize (by omega)
  rw [if_neg (by rintro ⟨h1, _⟩; exact hne h1)] at hprep
  have hd := hv.fa.dvd_of_le hv.sa hv.le
  have hsp := Sec.prepared_span (s := { s with data := d }) hv.fa hv.sa hv.le
  have hvp := Sec.prepared_vsize_pos (s := { s with data := d }) hv.fa hv.sa (by rintro ⟨h1, _⟩; exact hne h1)
  unfold Sec.span at hsp
  rw [if_neg hvp] at hsp
  have hvs := ceilTo_ge (x := (({ s with data := d } : Sec).prepared p.nt.fileAlign p.nt.secAlign).vsize) hv.sa.pos
  have hcf := ceilTo_le_ceilTo (x := d.length) hv.fa.pos hv.sa.pos hd
  have hcn : ceilTo d.length p.nt.secAlign ≤ ({ s with data := d } : Sec).need p.nt.secAlign :=
    ceilTo_mono hv.sa.pos (Nat.le_max_left _ _)
  obtain ⟨k, hk⟩ := strip_zeros d
  have hkl := congrArg List.length hk
  simp only [List.length_append, zeros_length] at hkl
  unfold Image.recalculateSectionSizes
  simp only [List.getElem?_set_self hi, List.length_set, List.set_set]
  rw [hprep, ok_bind]
  have hw : w32 (stripKeepOne d.reverse).reverse.length = (stripKeepOne d.reverse).reverse.length := by
    rw [w32, Nat.mod_eq_of_lt (by omega)]
  have hdata : (({ s with data := d } : Sec).prepared p.nt.fileAlign p.nt.secAlign).data = d := rfl
  simp only [hdata, hw]
  have hhost : (if strip = true ∧ i + 1 ≠ p.secs.length then
      { ({ s with data := d } : Sec).prepared p.nt.fileAlign p.nt.secAlign with
        data := (stripKeepOne d.reverse).reverse, rawSize := (stripKeepOne d.reverse).reverse.length }
      else ({ s with data := d } : Sec).prepared p.nt.fileAlign p.nt.secAlign) = hosted p i s d strip := rfl
  rw [hhost]
  have hvsz : (hosted p i s d strip).vsize =
      (({ s with data := d } : Sec).prepared p.nt.fileAlign p.nt.secAlign).vsize := by
    unfold hosted; dsimp only; split <;> rfl
  have hraw : (hosted p i s d strip).rawSize ≤ ceilTo d.length p.nt.fileAlign := by
    have := ceilTo_ge (x := d.length) hv.fa.pos
    unfold hosted; dsimp only; split
    · show (stripKeepOne d.reverse).reverse.length ≤ _; omega
    · exact Nat.le_refl _
  have hraw2 : ceilTo (hosted p i s d strip).rawSize p.nt.fileAlign ≤ ceilTo d.length p.nt.fileAlign :=
    ceilTo_least hv.fa.pos (ceilTo_dvd _ _) hraw
  rw [if_neg]
  rw [hvsz, alignUp_of_le hv.sa (by omega) (by rw [hsp]; omega), hsp,
    alignUp_of_le hv.fa (by omega) (by omega)]
  omega

/-- Header fields and memory of a section after `recalculate_section_sizes`. -/
theorem hosted_facts {p : Image} {i : Nat} {s : Sec} {d : Bytes} (strip : Bool) (h : Host p i s) (hne : d ≠ [])
    (hge : s.data.length ≤ d.length) (hroom : HostRoom p i s d.length) :
    let t := hosted p i s d strip
    t.va = s.va ∧ t.rawPtr = s.rawPtr ∧ t.vsize ≠ 0 ∧
    t.span p.nt.secAlign = ({ s with data := d } : Sec).need p.nt.secAlign ∧
    t.data.length ≤ d.length ∧ t.rawSize < 2 ^ 32 ∧
    t.memory p.nt.secAlign = d ++ zeros (({ s with data := d } : Sec).need p.nt.secAlign - d.length) := by
  have hv := h.valid
  obtain ⟨-, hn2, hn3⟩ := h.need_eq hge hroom
  have hd := hv.fa.dvd_of_le hv.sa hv.le
  have hsp := Sec.prepared_span (s := { s with data := d }) hv.fa hv.sa hv.le
  have hvp := Sec.prepared_vsize_pos (s := { s with data := d }) hv.fa hv.sa (by rintro ⟨h1, _⟩; exact hne h1)
  have hcf := ceilTo_le_ceilTo (x := d.length) hv.fa.pos hv.sa.pos hd
  have hcn : ceilTo d.length p.nt.secAlign ≤ ({ s with data := d } : Sec).need p.nt.secAlign :=
    ceilTo_mono hv.sa.pos (Nat.le_max_left _ _)
  obtain ⟨k, hk⟩ := strip_zeros d
  have hkl := congrArg List.length hk
  simp only [List.length_append, zeros_length] at hkl
  have hvsz : (hosted p i s d strip).vsize =
      (({ s with data := d } : Sec).prepared p.nt.fileAlign p.nt.secAlign).vsize := by
    unfold hosted; dsimp only; split <;> rfl
  have hspan : (hosted p i s d strip).span p.nt.secAlign = ({ s with data := d } : Sec).need p.nt.secAlign := by
    rw [← hsp]
    unfold Sec.span
    rw [hvsz, if_neg hvp, if_neg hvp]
  dsimp only
  refine ⟨?_, ?_, by rw [hvsz]; exact hvp, hspan, ?_, ?_, ?_⟩
  · unfold hosted; dsimp only; split <;> rfl
  · unfold hosted; dsimp only; split <;> rfl
  · unfold hosted; dsimp only; split
    · show (stripKeepOne d.reverse).reverse.length ≤ _; omega
    · exact Nat.le_refl _
  · unfold hosted; dsimp only; split
    · show (stripKeepOne d.reverse).reverse.length < _; omega
    · show ceilTo d.length _ < _; omega
  · unfold Sec.memory
    rw [hspan]
    unfold hosted; dsimp only; split
    · generalize ({ s with data := d } : Sec).need p.nt.secAlign = N at *
      have hz : zeros k ++ zeros (N - d.length) = zeros (N - (stripKeepOne d.reverse).reverse.length) := by
        unfold zeros
        rw [List.replicate_append_replicate]
        congr 1
        omega
      show (stripKeepOne d.reverse).reverse ++ zeros (N - (stripKeepOne d.reverse).reverse.length) = _
      rw [← hz, ← List.append_assoc, ← hk]
    · rfl

theorem hosted_valid {p : Image} {i : Nat} {s : Sec} {d : Bytes} (strip : Bool) (h : Host p i s) (hne : d ≠ [])
    (hge : s.data.length ≤ d.length) (hroom : HostRoom p i s d.length) :
    ValidTable { p with secs := p.secs.set i (hosted p i s d strip) } := by
  have hv := h.valid
  have hm := List.mem_of_getElem? h.sec
  obtain ⟨f1, f2, f3, f4, f5, f6, f7⟩ := hosted_facts strip h hne hge hroom
  obtain ⟨hn1, hn2, hn3⟩ := h.need_eq hge hroom
  generalize hosted p i s d strip = t at *
  have hf : t.Fits p.nt.secAlign := by
    have := ceilTo_ge (x := t.vsize) hv.sa.pos
    have hs := f4
    unfold Sec.span at hs
    rw [if_neg f3] at hs
    exact ⟨by omega, f6, by rw [f2]; exact (hv.fits s hm).rawPtr, by rw [f1, f4]; exact hn2⟩
  have hmem : ∀ x ∈ p.secs.set i t, x ∈ p.secs ∨ x = t := fun x hx => List.mem_or_eq_of_mem_set hx
  exact {
    sa := hv.sa, fa := hv.fa, le := hv.le
    fits := fun x hx => (hmem x hx).elim (hv.fits x) (fun e => by rw [e]; exact hf)
    aligned := fun x hx => (hmem x hx).elim (hv.aligned x) (fun e => by rw [e, f1]; exact hv.aligned s hm)
    nonempty := fun x hx => (hmem x hx).elim (hv.nonempty x) (fun e => by rw [e]; exact fun h => f3 h.1)
    contig := hv.contig.set_mid h.sec f1 (fun hl => by rw [f4]; exact hn1 hl)
    num := by simpa using hv.num
    count := by simpa using hv.count
    pages := fun x hx => (hmem x hx).elim (hv.pages x) (fun e => by
      rw [e]; exact ⟨by omega, fun h0 => absurd h0 f3⟩) }

/-- The window onto the new data. -/
theorem hosted_window {p : Image} {i : Nat} {s : Sec} {d : Bytes} (strip : Bool) (h : Host p i s) (hne : d ≠ [])
    (hge : s.data.length ≤ d.length) (hroom : HostRoom p i s d.length) :
    ∃ k, Window { p with secs := p.secs.set i (hosted p i s d strip) } s.va (d ++ zeros k) (hosted p i s d strip) := by
  obtain ⟨f1, f2, f3, f4, f5, f6, f7⟩ := hosted_facts strip h hne hge hroom
  obtain ⟨hn1, hn2, hn3⟩ := h.need_eq hge hroom
  have hi : i < p.secs.length := by
    have := h.sec; rw [List.getElem?_eq_some_iff] at this; exact this.1
  refine ⟨({ s with data := d } : Sec).need p.nt.secAlign - d.length, ?_⟩
  rw [← f7, ← f1]
  exact window_of_valid (i := i) (hosted_valid strip h hne hge hroom) (by simp [hi])
    (by rw [f1]; exact h.hdr) (by show _ ≤ Sec.span _ p.nt.secAlign; omega)

theorem hosted_same (p : Image) (i : Nat) (s : Sec) (d : Bytes) (strip : Bool) : hosted p i s d strip =
    { s with data := (hosted p i s d strip).data, rawSize := (hosted p i s d strip).rawSize, vsize := (hosted p i s d strip).vsize } := by
  unfold hosted; dsimp only; split <;> rfl

/-- The section still is a valid place for data. -/
theorem hosted_again {p : Image} {i : Nat} {s : Sec} {d : Bytes} (strip : Bool) (h : Host p i s) (hne : d ≠ [])
    (hge : s.data.length ≤ d.length) (hroom : HostRoom p i s d.length) :
    Rehosted { p with secs := p.secs.set i (hosted p i s d strip) } i s := by
  have hv := h.valid
  have hf := hosted_facts strip h hne hge hroom
  obtain ⟨f1, f2, f3, f4, f5, f6, f7⟩ := hf
  obtain ⟨hn1, hn2, hn3⟩ := h.need_eq hge hroom
  have hi : i < p.secs.length := by
    have := h.sec; rw [List.getElem?_eq_some_iff] at this; exact this.1
  have hd := hv.fa.dvd_of_le hv.sa hv.le
  have hcf := ceilTo_le_ceilTo (x := d.length) hv.fa.pos hv.sa.pos hd
  have hcn : ceilTo d.length p.nt.secAlign ≤ ({ s with data := d } : Sec).need p.nt.secAlign :=
    ceilTo_mono hv.sa.pos (Nat.le_max_left _ _)
  obtain ⟨k, hk⟩ := strip_zeros d
  have hkl := congrArg List.length hk
  simp only [List.length_append, zeros_length] at hkl
  have hraw : (hosted p i s d strip).rawSize ≤ ceilTo d.length p.nt.fileAlign ∧
      (hosted p i s d strip).data.length ≤ (hosted p i s d strip).rawSize := by
    have := ceilTo_ge (x := d.length) hv.fa.pos
    unfold hosted; dsimp only; split
    · exact ⟨by show (stripKeepOne d.reverse).reverse.length ≤ _; omega, Nat.le_refl _⟩
    · exact ⟨Nat.le_refl _, this⟩
  have hraw2 : ceilTo (hosted p i s d strip).rawSize p.nt.fileAlign ≤ ceilTo d.length p.nt.fileAlign :=
    ceilTo_least hv.fa.pos (ceilTo_dvd _ _) hraw.1
  have hge' := ceilTo_ge (x := (hosted p i s d strip).rawSize) hv.fa.pos
  have hsp : s.span p.nt.secAlign ≤ ({ s with data := d } : Sec).need p.nt.secAlign := by
    by_cases hl : i + 1 < p.secs.length
    · rw [hn1 hl]; exact Nat.le_refl _
    · have hm := List.mem_of_getElem? h.sec
      have hpg := (hv.pages s hm).2
      unfold Sec.span Sec.need
      split
      · next h0 =>
        rw [← hpg h0]
        exact ceilTo_mono hv.sa.pos (Nat.le_trans hge (Nat.le_max_left _ _))
      · exact ceilTo_mono hv.sa.pos (Nat.le_max_right _ _)
  refine ⟨hosted p i s d strip, ⟨hosted_valid strip h hne hge hroom, by simp [hi], by rw [f1]; exact h.hdr,
    by rw [f1]; exact h.pos, ?_, ?_⟩, hosted_same p i s d strip, f3, ?_⟩
  · show _ ≤ ceilTo _ p.nt.fileAlign; omega
  · show ceilTo _ p.nt.fileAlign ≤ Sec.span _ p.nt.secAlign
    rw [f4]; omega
  · show _ ≤ Sec.span _ p.nt.secAlign
    rw [f4]; exact hsp

theorem Rehosted.congr {p q : Image} {i : Nat} {s : Sec} (h : Rehosted p i s) (hs : q.secs = p.secs) (hd : q.hdrData = p.hdrData)
    (e1 : q.nt.secAlign = p.nt.secAlign) (e2 : q.nt.fileAlign = p.nt.fileAlign) (e3 : q.nt.numSections = p.nt.numSections) :
    Rehosted q i s := by
  obtain ⟨t, ht, h1, h2, h3⟩ := h
  exact ⟨t, ⟨ht.valid.congr hs e1 e2 e3, by rw [hs]; exact ht.sec, by rw [hd]; exact ht.hdr, ht.pos, by rw [e2]; exact ht.data,
    by rw [e1, e2]; exact ht.raw⟩, h1, h2, by rw [e1]; exact h3⟩

end PE
