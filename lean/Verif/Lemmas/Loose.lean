/-
Section tables in the middle of a rebuild: the raw data of one section may already have grown although its sizes have
not been recalculated yet.
-/
import Verif.Lemmas.Place
import Verif.Lemmas.At
import Verif.Lemmas.Rebase
import Verif.Props.Resize
import Verif.Model.Tls

namespace PE

/-- A valid section table except that the raw data of section `i` may be longer than its header fields say. -/
structure Loose (p : Image) (i : Nat) : Prop where
  sa : Pow2 p.nt.secAlign
  fa : Pow2 p.nt.fileAlign
  le : p.nt.fileAlign ≤ p.nt.secAlign
  fits : ∀ s ∈ p.secs, s.Fits p.nt.secAlign
  aligned : ∀ s ∈ p.secs, p.nt.secAlign ∣ s.va
  nonempty : ∀ s ∈ p.secs, ¬ (s.vsize = 0 ∧ s.rawSize = 0)
  contig : Contig p.nt.secAlign p.secs
  num : p.nt.numSections = p.secs.length
  count : p.secs.length ≤ 96
  hdr : ∀ s ∈ p.secs, p.hdrData.length ≤ s.va ∧ 0 < s.va
  small : ∀ s ∈ p.secs, s.va + ceilTo s.data.length p.nt.secAlign < 2 ^ 32 ∧ s.data.length < 2 ^ 31 ∧
    s.span p.nt.secAlign < 2 ^ 31
  pages : ∀ j s, p.secs[j]? = some s → s.vsize = 0 →
    ceilTo s.rawSize p.nt.secAlign ≤ ceilTo s.data.length p.nt.secAlign ∧
    (j ≠ i → ceilTo s.data.length p.nt.secAlign = ceilTo s.rawSize p.nt.secAlign)
  mid : ∀ j s, p.secs[j]? = some s → j ≠ i ∨ j + 1 < p.secs.length → s.data.length ≤ s.span p.nt.secAlign

/-- Replacing section `j`. -/
theorem Loose.set {p : Image} {i j : Nat} {s s' : Sec} (h : Loose p i) (hj : p.secs[j]? = some s)
    (hva : s'.va = s.va) (hfits : s'.Fits p.nt.secAlign) (hne : ¬ (s'.vsize = 0 ∧ s'.rawSize = 0))
    (hspan : j + 1 < p.secs.length → s'.span p.nt.secAlign = s.span p.nt.secAlign)
    (hsmall : s'.va + ceilTo s'.data.length p.nt.secAlign < 2 ^ 32 ∧ s'.data.length < 2 ^ 31 ∧
      s'.span p.nt.secAlign < 2 ^ 31)
    (hpages : s'.vsize = 0 →
      ceilTo s'.rawSize p.nt.secAlign ≤ ceilTo s'.data.length p.nt.secAlign ∧
      (j ≠ i → ceilTo s'.data.length p.nt.secAlign = ceilTo s'.rawSize p.nt.secAlign))
    (hmid : j ≠ i ∨ j + 1 < p.secs.length → s'.data.length ≤ s'.span p.nt.secAlign) :
    Loose { p with secs := p.secs.set j s' } i := by
  have hm := List.mem_of_getElem? hj
  have hmem : ∀ x ∈ p.secs.set j s', x ∈ p.secs ∨ x = s' := fun x hx => List.mem_or_eq_of_mem_set hx
  have hlt : j < p.secs.length := (List.getElem?_eq_some_iff.mp hj).1
  have hget : ∀ k x, (p.secs.set j s')[k]? = some x → (k ≠ j ∧ p.secs[k]? = some x) ∨ (k = j ∧ x = s') := by
    intro k x hx
    by_cases hk : k = j
    · subst hk
      rw [List.getElem?_set_self hlt] at hx
      exact Or.inr ⟨rfl, (Option.some.inj hx).symm⟩
    · rw [List.getElem?_set_ne (Ne.symm hk)] at hx
      exact Or.inl ⟨hk, hx⟩
  exact {
    sa := h.sa, fa := h.fa, le := h.le
    fits := fun x hx => (hmem x hx).elim (h.fits x) (fun e => by rw [e]; exact hfits)
    aligned := fun x hx => (hmem x hx).elim (h.aligned x) (fun e => by rw [e, hva]; exact h.aligned s hm)
    nonempty := fun x hx => (hmem x hx).elim (h.nonempty x) (fun e => by rw [e]; exact hne)
    contig := h.contig.set_mid hj hva hspan
    num := by simpa using h.num
    count := by simpa using h.count
    hdr := fun x hx => (hmem x hx).elim (h.hdr x) (fun e => by rw [e, hva]; exact h.hdr s hm)
    small := fun x hx => (hmem x hx).elim (h.small x) (fun e => by rw [e]; exact hsmall)
    pages := fun k x hx => by
      rcases hget k x hx with ⟨_, h1⟩ | ⟨h1, h2⟩
      · exact h.pages k x h1
      · rw [h1, h2]; exact hpages
    mid := fun k x hx hk => by
      rw [show ({ p with secs := p.secs.set j s' } : Image).secs.length = p.secs.length by simp] at hk
      rcases hget k x hx with ⟨_, h1⟩ | ⟨h1, h2⟩
      · exact h.mid k x h1 hk
      · rw [h2]; rw [h1] at hk; exact hmid hk }

/-- In a well formed image in which every section lies behind the headers and has its raw data inside of its pages,
    nothing is loose. -/
theorem Loose.of_hosts {p : Image} (i : Nat) (hv : ValidTable p) (hall : ∀ j s, p.secs[j]? = some s → Host p j s)
    (h31 : ∀ s ∈ p.secs, s.span p.nt.secAlign < 2 ^ 31) : Loose p i := by
  have hat : ∀ s ∈ p.secs, ∃ j, p.secs[j]? = some s := fun s hs => List.getElem?_of_mem hs
  have hds : ∀ s ∈ p.secs, s.data.length ≤ s.span p.nt.secAlign := fun s hs => by
    obtain ⟨j, hj⟩ := hat s hs
    have := (hall j s hj).data
    have := (hall j s hj).raw
    omega
  exact {
    sa := hv.sa, fa := hv.fa, le := hv.le, fits := hv.fits, aligned := hv.aligned, nonempty := hv.nonempty
    contig := hv.contig, num := hv.num, count := hv.count
    hdr := fun s hs => by
      obtain ⟨j, hj⟩ := hat s hs
      exact ⟨(hall j s hj).hdr, (hall j s hj).pos⟩
    small := fun s hs => by
      have h1 := h31 s hs
      have h2 := hds s hs
      have h3 := (hv.fits s hs).fin
      have h4 : ceilTo s.data.length p.nt.secAlign ≤ s.span p.nt.secAlign :=
        ceilTo_least hv.sa.pos (ceilTo_dvd _ _) h2
      exact ⟨by omega, by omega, h1⟩
    pages := fun j s hj h0 => by
      have := (hv.pages s (List.mem_of_getElem? hj)).2 h0
      exact ⟨by omega, fun _ => this⟩
    mid := fun j s hj _ => hds s (List.mem_of_getElem? hj) }

/-- If the data of section `i` are in order as well, the table is valid. -/
theorem Loose.valid {p : Image} {i : Nat} (h : Loose p i)
    (hi : ∀ s, p.secs[i]? = some s → s.vsize = 0 →
      ceilTo s.data.length p.nt.secAlign = ceilTo s.rawSize p.nt.secAlign) : ValidTable p :=
  { sa := h.sa, fa := h.fa, le := h.le, fits := h.fits, aligned := h.aligned, nonempty := h.nonempty
    contig := h.contig, num := h.num, count := h.count
    pages := fun s hs => by
      obtain ⟨j, hj⟩ := List.getElem?_of_mem hs
      have := (h.small s hs).2.1
      refine ⟨by omega, fun h0 => ?_⟩
      by_cases hji : j = i
      · subst hji; exact hi s hj h0
      · exact (h.pages j s hj h0).2 hji }

/-- New data for section `i`, still without new sizes. -/
theorem Loose.setData {p : Image} {i j : Nat} {s : Sec} {d : Bytes} (h : Loose p i) (hj : p.secs[j]? = some s)
    (hge : s.data.length ≤ d.length) (hne : j ≠ i → d.length = s.data.length)
    (hlen : s.va + ceilTo d.length p.nt.secAlign < 2 ^ 32 ∧ d.length < 2 ^ 31)
    (hmid : j + 1 < p.secs.length → d.length ≤ s.span p.nt.secAlign) :
    Loose { p with secs := p.secs.set j { s with data := d } } i := by
  have hm := List.mem_of_getElem? hj
  have hf := h.fits s hm
  refine h.set hj rfl ⟨hf.vsize, hf.rawSize, hf.rawPtr, hf.fin⟩ (h.nonempty s hm) (fun _ => rfl)
    ⟨hlen.1, hlen.2, (h.small s hm).2.2⟩ ?_ ?_
  · intro h0
    obtain ⟨h1, h2⟩ := h.pages j s hj h0
    have h3 := ceilTo_mono (a := p.nt.secAlign) h.sa.pos hge
    refine ⟨by show ceilTo s.rawSize _ ≤ ceilTo d.length _; omega, fun hji => ?_⟩
    show ceilTo d.length _ = ceilTo s.rawSize _
    rw [hne hji]; exact h2 hji
  · intro hk
    show d.length ≤ s.span p.nt.secAlign
    rcases hk with hk | hk
    · rw [hne hk]; exact h.mid j s hj (Or.inl hk)
    · exact hmid hk

/-- Overwriting bytes in the raw data of a section. -/
theorem Loose.patch {p : Image} {i j : Nat} {s : Sec} {o : Nat} {x : Bytes} (h : Loose p i)
    (hj : p.secs[j]? = some s) (hx : o + x.length ≤ s.data.length) :
    Loose { p with secs := p.secs.set j { s with data := PE.patch s.data o x } } i := by
  have hl := patch_length hx
  have hs := h.small s (List.mem_of_getElem? hj)
  refine h.setData hj (by omega) (fun _ => hl) (by rw [hl]; exact ⟨hs.1, hs.2.1⟩) (fun hlt => ?_)
  rw [hl]; exact h.mid j s hj (Or.inr hlt)

/-! ### Looking up addresses -/

theorem Loose.sectionFromRva {p : Image} {i j : Nat} {s : Sec} (h : Loose p i) (hj : p.secs[j]? = some s) {rva : Nat}
    (hc : s.Covers p.nt.secAlign rva) : p.sectionFromRva rva = .ok s :=
  C06_unique p h.sa h.fits h.contig.disjoint rva s (List.mem_of_getElem? hj) hc

theorem Loose.secIdxFromRva {p : Image} {i j : Nat} {s : Sec} (h : Loose p i) (hj : p.secs[j]? = some s) {rva : Nat}
    (hc : s.Covers p.nt.secAlign rva) : p.secIdxFromRva rva = .ok j := by
  have hd := h.contig.disjoint
  unfold VirtDisjoint at hd
  have hlt : j < p.secs.length := (List.getElem?_eq_some_iff.mp hj).1
  have he : p.secs[j] = s := (List.getElem?_eq_some_iff.mp hj).2
  have : p.secs.findIdx? (fun s => s.containsRva p.nt.secAlign rva) = some j := by
    rw [List.findIdx?_eq_some_iff_getElem]
    refine ⟨hlt, ?_, fun k hk => ?_⟩
    · rw [he, Sec.containsRva_iff h.sa (h.fits s (List.mem_of_getElem? hj))]; exact hc
    · have hkl : k < p.secs.length := by omega
      have hpw := List.pairwise_iff_getElem.mp hd k j hkl hlt hk
      rw [he] at hpw
      intro hcon
      rw [Sec.containsRva_iff h.sa (h.fits _ (List.getElem_mem hkl))] at hcon
      obtain ⟨a1, a2⟩ := hcon
      obtain ⟨b1, b2⟩ := hc
      omega
  unfold Image.secIdxFromRva
  rw [this]

theorem Loose.lenRaw {p : Image} {i j : Nat} {s : Sec} (h : Loose p i) (hj : p.secs[j]? = some s) {rva : Nat}
    (hc : s.Covers p.nt.secAlign rva) (hdrs : Bool) :
    p.dataLenFrom rva rva .raw hdrs = .ok (s.data.length + s.va - rva) := by
  have hm := List.mem_of_getElem? hj
  have hh := (h.hdr s hm).1
  have hs := h.small s hm
  have := ceilTo_ge (x := s.data.length) h.sa.pos
  obtain ⟨h1, h2⟩ := hc
  unfold Image.dataLenFrom
  rw [if_neg (by rintro ⟨_, h, _⟩; omega), h.sectionFromRva hj ⟨h1, h2⟩, ok_bind, if_neg (by omega)]
  show Except.ok (w32 (s.data.length + s.va - rva)) = _
  rw [w32, Nat.mod_eq_of_lt (by omega)]

theorem Loose.lenVirt {p : Image} {i j : Nat} {s : Sec} (h : Loose p i) (hj : p.secs[j]? = some s) {rva : Nat}
    (hc : s.Covers p.nt.secAlign rva) (hdrs : Bool) :
    p.dataLenFrom rva rva .virt hdrs = .ok (s.span p.nt.secAlign + s.va - rva) := by
  have hm := List.mem_of_getElem? hj
  have hh := (h.hdr s hm).1
  have hf := h.fits s hm
  have hfin := hf.fin
  obtain ⟨h1, h2⟩ := hc
  unfold Image.dataLenFrom
  rw [if_neg (by rintro ⟨_, h, _⟩; omega), h.sectionFromRva hj ⟨h1, h2⟩, ok_bind, if_neg (by omega)]
  show Except.ok (w32 (s.alignedVS p.nt.secAlign + s.va - rva)) = _
  rw [Sec.alignedVS_eq h.sa hf, w32, Nat.mod_eq_of_lt (by omega)]

/-- Writing through the pointer `section_data_from_rva` returns. -/
theorem Loose.write {p : Image} {i j : Nat} {s : Sec} (h : Loose p i) (hj : p.secs[j]? = some s) {rva : Nat} {x : Bytes}
    (hc : s.Covers p.nt.secAlign rva) (hx : rva - s.va + x.length ≤ s.data.length) (hne : 0 < x.length) :
    p.mutPtrFromRva rva true = .ok (.sec j (rva - s.va)) ∧
    p.writeLoc (.sec j (rva - s.va)) x =
      .ok { p with secs := p.secs.set j { s with data := PE.patch s.data (rva - s.va) x } } := by
  have hh := (h.hdr s (List.mem_of_getElem? hj)).1
  constructor
  · unfold Image.mutPtrFromRva
    have := hc.1
    rw [if_neg (by rintro ⟨_, h⟩; omega), h.secIdxFromRva hj hc, ok_bind, hj]
    dsimp only
    rw [if_neg (by intro h0; rw [h0, List.length_nil] at hx; omega), if_neg (by omega)]
  · unfold Image.writeLoc
    dsimp only
    rw [hj]
    dsimp only
    rw [writeAt_ok hx, ok_bind]

/-! ### New sizes -/

theorem Loose.need {p : Image} {i j : Nat} {s : Sec} (h : Loose p i) (hj : p.secs[j]? = some s) :
    s.need p.nt.secAlign = max (ceilTo s.data.length p.nt.secAlign) (ceilTo s.vsize p.nt.secAlign) ∧
    s.span p.nt.secAlign ≤ s.need p.nt.secAlign ∧
    (s.data.length ≤ s.span p.nt.secAlign → s.need p.nt.secAlign = s.span p.nt.secAlign) ∧
    s.data.length ≤ s.need p.nt.secAlign ∧ s.va + s.need p.nt.secAlign < 2 ^ 32 := by
  have hm := List.mem_of_getElem? hj
  have hf := (h.fits s hm).fin
  have hs := (h.small s hm).1
  have hneed : s.need p.nt.secAlign =
      max (ceilTo s.data.length p.nt.secAlign) (ceilTo s.vsize p.nt.secAlign) := ceilTo_max h.sa.pos
  have hspan : s.span p.nt.secAlign = ceilTo (if s.vsize = 0 then s.rawSize else s.vsize) p.nt.secAlign := rfl
  have hge := ceilTo_ge (x := s.data.length) h.sa.pos
  have hup : s.data.length ≤ s.span p.nt.secAlign → ceilTo s.data.length p.nt.secAlign ≤ s.span p.nt.secAlign :=
    fun hd => ceilTo_least h.sa.pos (by rw [hspan]; exact ceilTo_dvd _ _) hd
  refine ⟨hneed, ?_⟩
  rw [hneed]
  by_cases h0 : s.vsize = 0
  · have hz : ceilTo s.vsize p.nt.secAlign = 0 := by rw [h0, ceilTo_zero]
    have hp := (h.pages j s hj h0).1
    rw [if_pos h0] at hspan
    refine ⟨by omega, fun hd => ?_, by omega, by omega⟩
    have := hup hd
    omega
  · rw [if_neg h0] at hspan
    refine ⟨by omega, fun hd => ?_, by omega, by omega⟩
    have := hup hd
    omega

/-- `recalculate_section_sizes` succeeds; the section gets the size its data need. -/
theorem Loose.recalc {p : Image} {i j : Nat} {s : Sec} (strip : Bool) (h : Loose p i) (hj : p.secs[j]? = some s)
    (hne : s.data ≠ []) :
    p.recalculateSectionSizes j strip = .ok { p with secs := p.secs.set j (hosted p j s s.data strip) } ∧
    (hosted p j s s.data strip).va = s.va ∧
    (hosted p j s s.data strip).rawPtr = s.rawPtr ∧
    (hosted p j s s.data strip).vsize ≠ 0 ∧
    (hosted p j s s.data strip).span p.nt.secAlign = s.need p.nt.secAlign ∧
    (hosted p j s s.data strip).data.length ≤ s.data.length ∧
    (strip = false → (hosted p j s s.data strip).data = s.data) ∧
    (hosted p j s s.data strip).rawSize < 2 ^ 32 ∧
    (hosted p j s s.data strip).memory p.nt.secAlign = s.data ++ zeros (s.need p.nt.secAlign - s.data.length) := by
  have hm := List.mem_of_getElem? hj
  have hf := h.fits s hm
  obtain ⟨-, -, -, hn3, hn2⟩ := h.need hj
  have hjl : j < p.secs.length := (List.getElem?_eq_some_iff.mp hj).1
  have hprep := prepareSection_eq (s := s) h.fa h.sa h.le hf.vsize (by omega)
  rw [if_neg (by rintro ⟨h1, _⟩; exact hne h1)] at hprep
  have hd := h.fa.dvd_of_le h.sa h.le
  have hsp := Sec.prepared_span (s := s) h.fa h.sa h.le
  have hvp := Sec.prepared_vsize_pos (s := s) h.fa h.sa (by rintro ⟨h1, _⟩; exact hne h1)
  have hcf := ceilTo_le_ceilTo (x := s.data.length) h.fa.pos h.sa.pos hd
  have hcn : ceilTo s.data.length p.nt.secAlign ≤ s.need p.nt.secAlign :=
    ceilTo_mono h.sa.pos (Nat.le_max_left _ _)
  obtain ⟨k, hk⟩ := strip_zeros s.data
  have hkl := congrArg List.length hk
  simp only [List.length_append, zeros_length] at hkl
  have hvsz : (hosted p j s s.data strip).vsize = (s.prepared p.nt.fileAlign p.nt.secAlign).vsize := by
    unfold hosted; dsimp only; split <;> rfl
  have hspan : (hosted p j s s.data strip).span p.nt.secAlign = s.need p.nt.secAlign := by
    rw [← hsp]
    unfold Sec.span
    rw [hvsz, if_neg hvp, if_neg hvp]
  have hraw : (hosted p j s s.data strip).rawSize ≤ ceilTo s.data.length p.nt.fileAlign := by
    have := ceilTo_ge (x := s.data.length) h.fa.pos
    unfold hosted; dsimp only; split
    · show (stripKeepOne s.data.reverse).reverse.length ≤ _; omega
    · exact Nat.le_refl _
  refine ⟨?_, ?_, ?_, by rw [hvsz]; exact hvp, hspan, ?_, ?_, by omega, ?_⟩
  · have hvs := ceilTo_ge (x := (s.prepared p.nt.fileAlign p.nt.secAlign).vsize) h.sa.pos
    have hsp' := hsp
    unfold Sec.span at hsp'
    rw [if_neg hvp] at hsp'
    unfold Image.recalculateSectionSizes
    simp only [hj]
    rw [hprep, ok_bind]
    have hw : w32 (stripKeepOne s.data.reverse).reverse.length = (stripKeepOne s.data.reverse).reverse.length := by
      rw [w32, Nat.mod_eq_of_lt (by omega)]
    have hdata : (s.prepared p.nt.fileAlign p.nt.secAlign).data = s.data := rfl
    simp only [hdata, hw]
    have hhost : (if strip = true ∧ j + 1 ≠ p.secs.length then
        { s.prepared p.nt.fileAlign p.nt.secAlign with
          data := (stripKeepOne s.data.reverse).reverse, rawSize := (stripKeepOne s.data.reverse).reverse.length }
        else s.prepared p.nt.fileAlign p.nt.secAlign) = hosted p j s s.data strip := rfl
    rw [hhost]
    have hraw2 : ceilTo (hosted p j s s.data strip).rawSize p.nt.fileAlign ≤ ceilTo s.data.length p.nt.fileAlign :=
      ceilTo_least h.fa.pos (ceilTo_dvd _ _) hraw
    rw [if_neg]
    rw [hvsz, alignUp_of_le h.sa (by omega) (by rw [hsp']; omega), hsp',
      alignUp_of_le h.fa (by omega) (by omega)]
    omega
  · unfold hosted; dsimp only; split <;> rfl
  · unfold hosted; dsimp only; split <;> rfl
  · unfold hosted; dsimp only; split
    · show (stripKeepOne s.data.reverse).reverse.length ≤ _; omega
    · exact Nat.le_refl _
  · intro hs
    unfold hosted
    rw [hs]
    rfl
  · unfold Sec.memory
    rw [hspan]
    unfold hosted; dsimp only; split
    · generalize s.need p.nt.secAlign = N at *
      have hz : zeros k ++ zeros (N - s.data.length) = zeros (N - (stripKeepOne s.data.reverse).reverse.length) := by
        unfold zeros
        rw [List.replicate_append_replicate]
        congr 1
        omega
      show (stripKeepOne s.data.reverse).reverse ++ zeros (N - (stripKeepOne s.data.reverse).reverse.length) = _
      rw [← hz, ← List.append_assoc, ← hk]
    · rfl

/-- The raw data do not exceed the (file aligned) raw size, and this lies inside of the pages. -/
def Sec.Snug (s : Sec) (p : Image) : Prop :=
  s.data.length ≤ ceilTo s.rawSize p.nt.fileAlign ∧ ceilTo s.rawSize p.nt.fileAlign ≤ s.span p.nt.secAlign

/-- Only the raw data and the sizes differ. -/
def Sec.Resized (s s' : Sec) : Prop :=
  s' = { s with data := s'.data, rawSize := s'.rawSize, vsize := s'.vsize } ∧ (s.vsize ≠ 0 → s'.vsize ≠ 0)

theorem Sec.Resized.refl (s : Sec) : s.Resized s := ⟨rfl, id⟩

theorem Sec.Resized.va {s s' : Sec} (h : s.Resized s') : s'.va = s.va := by rw [h.1]

theorem Sec.Resized.trans {a b c : Sec} (h : a.Resized b) (g : b.Resized c) : a.Resized c := by
  refine ⟨?_, fun x => g.2 (h.2 x)⟩
  have e := g.1
  rw [h.1] at e
  exact e

theorem hosted_resized (p : Image) (j : Nat) (s : Sec) (d : Bytes) (strip : Bool) :
    hosted p j s d strip =
      { s with data := (hosted p j s d strip).data, rawSize := (hosted p j s d strip).rawSize, vsize := (hosted p j s d strip).vsize } := by
  unfold hosted Sec.prepared
  dsimp only
  split <;> rfl

/-- Recalculated sizes are in order. -/
theorem Loose.hosted_snug {p : Image} {i j : Nat} {s : Sec} (strip : Bool) (h : Loose p i) (hj : p.secs[j]? = some s)
    (hne : s.data ≠ []) : (hosted p j s s.data strip).Snug p := by
  obtain ⟨-, -, -, -, r5, r6, -, -, -⟩ := h.recalc strip hj hne
  have hd := h.fa.dvd_of_le h.sa h.le
  have hcf := ceilTo_le_ceilTo (x := s.data.length) h.fa.pos h.sa.pos hd
  have hcn : ceilTo s.data.length p.nt.secAlign ≤ s.need p.nt.secAlign :=
    ceilTo_mono h.sa.pos (Nat.le_max_left _ _)
  unfold Sec.Snug
  rw [r5]
  have hraw : ((hosted p j s s.data strip).rawSize = (hosted p j s s.data strip).data.length) ∨
      ((hosted p j s s.data strip).rawSize = ceilTo s.data.length p.nt.fileAlign) := by
    unfold hosted; dsimp only; split
    · exact .inl rfl
    · exact .inr rfl
  generalize hosted p j s s.data strip = t at *
  rcases hraw with e | e
  · rw [e]
    have := ceilTo_mono (a := p.nt.fileAlign) h.fa.pos r6
    exact ⟨ceilTo_ge h.fa.pos, by omega⟩
  · rw [e, ceilTo_of_dvd (ceilTo_dvd _ _)]
    have := ceilTo_ge (x := s.data.length) h.fa.pos
    omega

/-- Another section may be the loose one if section `i` is in order. -/
theorem Loose.change {p : Image} {i : Nat} (h : Loose p i) (j : Nat)
    (hi : ∀ s, p.secs[i]? = some s → s.data.length ≤ s.span p.nt.secAlign) : Loose p j :=
  { sa := h.sa, fa := h.fa, le := h.le, fits := h.fits, aligned := h.aligned, nonempty := h.nonempty
    contig := h.contig, num := h.num, count := h.count, hdr := h.hdr, small := h.small
    pages := fun k s hk h0 => by
      have h1 := h.pages k s hk h0
      refine ⟨h1.1, fun _ => ?_⟩
      by_cases hki : k = i
      · subst hki
        have h2 := hi s hk
        have hspan : s.span p.nt.secAlign = ceilTo s.rawSize p.nt.secAlign := by
          unfold Sec.span; rw [if_pos h0]
        have : ceilTo s.data.length p.nt.secAlign ≤ s.span p.nt.secAlign :=
          ceilTo_least h.sa.pos (ceilTo_dvd _ _) h2
        omega
      · exact h1.2 hki
    mid := fun k s hk _ => by
      by_cases hki : k = i
      · subst hki; exact hi s hk
      · exact h.mid k s hk (Or.inl hki) }

theorem resize_grow {d : Bytes} {n : Nat} (h : d.length ≤ n) : resize d n = d ++ zeros (n - d.length) := by
  unfold resize
  rw [List.take_of_length_le h]

theorem Loose.lenSecRaw {p : Image} {i j : Nat} {s : Sec} (h : Loose p i) (hj : p.secs[j]? = some s) {rva : Nat}
    (hc : s.Covers p.nt.secAlign rva) : p.dataLenSec s rva .raw = .ok (s.data.length - (rva - s.va)) := by
  have hm := List.mem_of_getElem? hj
  have hf := h.fits s hm
  have hsm := h.small s hm
  have hcc : s.containsRva p.nt.secAlign rva = true := by
    rw [Sec.containsRva_iff h.sa hf]; exact hc
  have hfin := hf.fin
  obtain ⟨h1, h2⟩ := hc
  have hge := ceilTo_ge (x := s.data.length) h.sa.pos
  unfold Image.dataLenSec
  rw [if_pos hcc]
  dsimp only
  rw [show s.viewLen .raw p.nt.secAlign = s.data.length from rfl]
  refine congrArg Except.ok ?_
  have e : sub32 (w32 (w32 s.data.length + s.va)) rva =
      if rva - s.va ≤ s.data.length then s.data.length - (rva - s.va)
      else 4294967296 - (rva - s.va - s.data.length) := by
    simp only [w32, sub32]
    by_cases hc : rva - s.va ≤ s.data.length
    · rw [if_pos hc]; omega
    · rw [if_neg hc]; omega
  rw [e]
  by_cases hc : rva - s.va ≤ s.data.length
  · rw [if_pos hc, if_neg (by omega)]
  · rw [if_neg hc, if_pos (by omega)]; omega

theorem Loose.lenSecVirt {p : Image} {i j : Nat} {s : Sec} (h : Loose p i) (hj : p.secs[j]? = some s) {rva : Nat}
    (hc : s.Covers p.nt.secAlign rva) : p.dataLenSec s rva .virt = .ok (s.span p.nt.secAlign - (rva - s.va)) := by
  have hm := List.mem_of_getElem? hj
  have hf := h.fits s hm
  have hsm := h.small s hm
  have hcc : s.containsRva p.nt.secAlign rva = true := by
    rw [Sec.containsRva_iff h.sa hf]; exact hc
  have hfin := hf.fin
  obtain ⟨h1, h2⟩ := hc
  unfold Image.dataLenSec
  rw [if_pos hcc]
  dsimp only
  rw [show s.viewLen .virt p.nt.secAlign = s.alignedVS p.nt.secAlign from rfl, Sec.alignedVS_eq h.sa hf]
  refine congrArg Except.ok ?_
  have e : sub32 (w32 (w32 (s.span p.nt.secAlign) + s.va)) rva = s.span p.nt.secAlign - (rva - s.va) := by
    simp only [w32, sub32]; omega
  rw [e, if_neg (by omega)]

/-- Expanding the section of `rva`, exceptions being swallowed: the last section grows as needed, any other one stays
    as it is. -/
theorem Loose.expand {p : Image} {i j : Nat} {s : Sec} (h : Loose p i) (hj : p.secs[j]? = some s) {rva n : Nat}
    (hc : s.Covers p.nt.secAlign rva)
    (hroom : j + 1 = p.secs.length → s.data.length < rva - s.va + n →
      s.va + ceilTo (rva - s.va + n) p.nt.secAlign < 2 ^ 32 ∧ ceilTo (rva - s.va + n) p.nt.secAlign < 2 ^ 31) :
    ∃ s', p.expandQuiet rva n .raw = .ok { p with secs := p.secs.set j s' } ∧
      Loose { p with secs := p.secs.set j s' } i ∧ s'.va = s.va ∧ (∃ m, s'.data = s.data ++ zeros m) ∧
      s.span p.nt.secAlign ≤ s'.span p.nt.secAlign ∧
      (j + 1 = p.secs.length → 0 < n → rva - s.va + n ≤ s'.data.length) ∧ (s.Snug p → s'.Snug p) ∧ s.Resized s' := by
  have hm := List.mem_of_getElem? hj
  have hjl : j < p.secs.length := (List.getElem?_eq_some_iff.mp hj).1
  have hset : p.secs.set j s = p.secs := set_of_getElem? hj
  have hc1 := hc.1
  have stay : p.expandQuiet rva n .raw = .ok p → (j + 1 = p.secs.length → 0 < n → rva - s.va + n ≤ s.data.length) →
      ∃ s', p.expandQuiet rva n .raw = .ok { p with secs := p.secs.set j s' } ∧
      Loose { p with secs := p.secs.set j s' } i ∧ s'.va = s.va ∧ (∃ m, s'.data = s.data ++ zeros m) ∧
      s.span p.nt.secAlign ≤ s'.span p.nt.secAlign ∧
      (j + 1 = p.secs.length → 0 < n → rva - s.va + n ≤ s'.data.length) ∧ (s.Snug p → s'.Snug p) ∧ s.Resized s' := by
    intro he hl
    refine ⟨s, ?_, ?_, rfl, ⟨0, by simp [zeros]⟩, Nat.le_refl _, hl, id, Sec.Resized.refl s⟩
    · rw [he, hset]
    · rw [hset]; exact h
  by_cases hlast : j + 1 = p.secs.length
  · by_cases hlen : s.data.length - (rva - s.va) < n
    · -- the section grows
      have hr := hroom hlast (by omega)
      have hge := ceilTo_ge (x := rva - s.va + n) h.sa.pos
      have hLj : Loose p j := by
        by_cases hij : i = j
        · rw [← hij]; exact h
        · refine h.change j (fun t ht => h.mid i t ht (Or.inr ?_))
          have := (List.getElem?_eq_some_iff.mp ht).1
          omega
      have hnum : w32 (sub32 rva s.va + n) = rva - s.va + n := by
        have := (h.fits s hm).fin
        have := hc.2
        rw [sub32_of_le hc1 (by omega), w32, Nat.mod_eq_of_lt (by omega)]
      have hgrow : resize s.data (rva - s.va + n) = s.data ++ zeros (rva - s.va + n - s.data.length) :=
        resize_grow (by omega)
      have hdl : (resize s.data (rva - s.va + n)).length = rva - s.va + n := by
        rw [hgrow, List.length_append, zeros_length]; omega
      have hL := hLj.setData (d := resize s.data (rva - s.va + n)) hj (by omega) (fun h => absurd rfl h)
        (by rw [hdl]; exact ⟨hr.1, by omega⟩) (fun hlt => by omega)
      have hj' : ({ p with secs := p.secs.set j { s with data := resize s.data (rva - s.va + n) } } : Image).secs[j]? =
          some { s with data := resize s.data (rva - s.va + n) } := List.getElem?_set_self hjl
      obtain ⟨r1, r2, r3, r4, r5, r6, r7, r8, r9⟩ := hL.recalc false hj' (by
        intro h0
        have := congrArg List.length h0
        rw [hdl] at this
        simp at this
        omega)
      obtain ⟨n1, n2, n3, n4, n5⟩ := hL.need hj'
      have hsn := hL.hosted_snug false hj' (by
        intro h0
        have := congrArg List.length h0
        rw [hdl] at this
        simp at this
        omega)
      have hrs := hosted_resized ({ p with secs := p.secs.set j { s with data := resize s.data (rva - s.va + n) } } : Image) j
        { s with data := resize s.data (rva - s.va + n) } (resize s.data (rva - s.va + n)) false
      generalize hhosted : hosted _ _ _ _ _ = t at r1 r2 r3 r4 r5 r6 r7 r8 r9 hsn hrs
      have r7' := r7 rfl
      dsimp only at r1 r2 r3 r4 r5 r6 r7' r8 r9 n1 n2 n3 n4 n5
      rw [List.set_set] at r1
      have hexp : p.expandQuiet rva n .raw = .ok { p with secs := p.secs.set j t } := by
        unfold Image.expandQuiet
        rw [h.secIdxFromRva hj hc]
        dsimp only
        unfold Image.expandSection
        rw [hj]
        dsimp only
        rw [if_neg (by omega), h.lenSecRaw hj hc, ok_bind, if_pos hlen, hnum]
        rw [r1]
        rfl
      have htl : t.data.length = rva - s.va + n := by rw [r7', hdl]
      have hsm := h.small s hm
      have hspn : s.span p.nt.secAlign ≤ t.span p.nt.secAlign := by rw [r5]; exact n2
      have hvsz := ceilTo_ge (x := t.vsize) h.sa.pos
      have hsp := r5
      unfold Sec.span at hsp
      rw [if_neg r4] at hsp
      have hneed31 : t.span p.nt.secAlign < 2 ^ 31 := by
        rw [r5, n1, hdl]
        by_cases h0 : s.vsize = 0
        · rw [h0, ceilTo_zero]; omega
        · have : s.span p.nt.secAlign = ceilTo s.vsize p.nt.secAlign := by unfold Sec.span; rw [if_neg h0]
          omega
      have hq : Loose { p with secs := p.secs.set j t } j := by
        refine hLj.set hj r2 ⟨by omega, r8, by rw [r3]; exact (h.fits s hm).rawPtr, by rw [r5, r2]; exact n5⟩
          (fun hz => r4 hz.1) (fun hlt => by omega) ⟨?_, by omega, hneed31⟩ (fun h0 => absurd h0 r4) (fun _ => ?_)
        · rw [htl, r2]; exact hr.1
        · rw [r5, r7']; exact n4
      refine ⟨t, hexp, ?_, r2, ⟨_, by rw [r7', hgrow]⟩, hspn, fun _ _ => by omega, fun _ => hsn, hrs, fun _ => r4⟩
      refine hq.change i (fun u hu => ?_)
      rw [List.getElem?_set_self hjl] at hu
      rw [← Option.some.inj hu, r7']
      show _ ≤ t.span p.nt.secAlign
      rw [r5]
      exact n4
    · -- nothing to do
      refine stay ?_ (fun _ _ => by omega)
      unfold Image.expandQuiet
      rw [h.secIdxFromRva hj hc]
      dsimp only
      unfold Image.expandSection
      rw [hj]
      dsimp only
      rw [if_neg (by omega), h.lenSecRaw hj hc, ok_bind, if_neg hlen]
  · refine stay ?_ (fun h => absurd h hlast)
    unfold Image.expandQuiet
    rw [h.secIdxFromRva hj hc]
    dsimp only
    unfold Image.expandSection
    rw [hj]
    dsimp only
    rw [if_pos hlast]
    show Except.ok (p.expandLeft j rva n .raw) = _
    unfold Image.expandLeft
    rw [hj]
    dsimp only
    rw [h.lenSecRaw hj hc]
    dsimp only
    rw [if_neg (fun h => hlast h.1)]

/-- Expanding the virtual size of a section that is large enough changes nothing. -/
theorem Loose.expandVirt {p : Image} {i j : Nat} {s : Sec} (h : Loose p i) (hj : p.secs[j]? = some s) {rva n : Nat}
    (hc : s.Covers p.nt.secAlign rva) (hroom : rva - s.va + n ≤ s.span p.nt.secAlign) :
    p.expandQuiet rva n .virt = .ok p := by
  unfold Image.expandQuiet
  rw [h.secIdxFromRva hj hc]
  dsimp only
  unfold Image.expandSection
  rw [hj]
  dsimp only
  by_cases hlast : j + 1 = p.secs.length
  · rw [if_neg (by omega), h.lenSecVirt hj hc, ok_bind, if_neg (by omega)]
  · rw [if_pos hlast]
    show Except.ok (p.expandLeft j rva n .virt) = _
    unfold Image.expandLeft
    rw [hj]

end PE
