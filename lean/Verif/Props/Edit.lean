/-
C10, C11, C49: editing the section table.
-/
import Verif.Lemmas.Edit
import Verif.Props.Rva
import Mathlib.Data.List.Forall2
import Mathlib.Tactic.Tauto
namespace PE

/-! ### C10: adding sections keeps the virtual layout valid -/

/-- A sequence of `add_section` calls. -/
def Image.addAll (p : Image) (auto : Bool) : List Sec → Res Image
  | [] => .ok p
  | s :: l => do
    let p ← p.addSection s auto
    p.addAll auto l

/-- Same section except (possibly) for the recorded raw size. -/
def Sec.SameButRawSize (s t : Sec) : Prop := { s with rawSize := 0 } = { t with rawSize := 0 }

/-- The section headers and contents a caller passes in are within the range of their C++ types and the
    address space suffices: the new sections end below 4 GiB. -/
def Room (p : Image) : List Sec → Prop
  | [] => True
  | s :: l => (∀ t ∈ s :: l, t.vsize < 2 ^ 32 ∧ t.va < 2 ^ 32 ∧ t.rawPtr < 2 ^ 32) ∧
      nextVA p s + ((s :: l).map (Sec.need · p.nt.secAlign)).sum < 2 ^ 32

theorem Room.head {p : Image} {s : Sec} {l : List Sec} (h : Room p (s :: l)) :
    s.vsize < 2 ^ 32 ∧ s.va < 2 ^ 32 ∧ s.rawPtr < 2 ^ 32 ∧ nextVA p s + s.need p.nt.secAlign < 2 ^ 32 := by
  obtain ⟨h1, h2⟩ := h
  have := h1 s (by simp)
  simp only [List.map_cons, List.sum_cons] at h2
  exact ⟨this.1, this.2.1, this.2.2, by omega⟩

theorem addSection_shape {p p' : Image} (hv : ValidTable p) {s : Sec} {l : List Sec} {auto : Bool}
    (room : Room p (s :: l)) (h : p.addSection s auto = .ok p') :
    p'.nt.secAlign = p.nt.secAlign ∧ p'.nt.fileAlign = p.nt.fileAlign ∧
    (∃ v, p'.secs = adjustLast p auto ++ [{ s.prepared p.nt.fileAlign p.nt.secAlign with va := v }]) ∧
    Room p' l := by
  obtain ⟨r1, r2, r3, r4⟩ := room.head
  rw [addSection_eq hv r1 r2 r4] at h
  split at h
  · simp at h
  · split at h
    · simp at h
    · injection h with h
      have e1 : p'.secs = adjustLast p auto ++
            [{ s.prepared p.nt.fileAlign p.nt.secAlign with va := nextVA p s }] := by rw [← h]
      have e2 : p'.nt.secAlign = p.nt.secAlign := by rw [← h]
      have e3 : p'.nt.fileAlign = p.nt.fileAlign := by rw [← h]
      clear h
      refine ⟨e2, e3, ⟨_, e1⟩, ?_⟩
      cases l with
      | nil => trivial
      | cons t l =>
        refine ⟨fun u hu => room.1 u (by simp at hu ⊢; exact .inr hu), ?_⟩
        have h2 := room.2
        have hsp := Sec.prepared_span (s := s) hv.fa hv.sa hv.le
        have hn : nextVA p' t = nextVA p s + s.need p.nt.secAlign := by
          conv => lhs; unfold nextVA
          rw [e1, List.getLast?_append]
          simp only [List.getLast?_singleton, Option.some_or, e2]
          rw [← hsp]; rfl
        rw [hn, e2]
        simp only [List.map_cons, List.sum_cons] at h2 ⊢
        omega

theorem adjustLast_same (p : Image) (auto : Bool) :
    List.Forall₂ Sec.SameButRawSize p.secs (adjustLast p auto) := by
  have refl : ∀ l : List Sec, List.Forall₂ Sec.SameButRawSize l l := by
    intro l; induction l with
    | nil => exact .nil
    | cons a l ih => exact .cons rfl ih
  have app : ∀ (l : List Sec) (a b : Sec), a.SameButRawSize b →
      List.Forall₂ Sec.SameButRawSize (l ++ [a]) (l ++ [b]) := by
    intro l a b h; induction l with
    | nil => exact .cons h .nil
    | cons a l ih => exact .cons rfl ih
  unfold adjustLast
  split
  · next l hl =>
    split
    · obtain ⟨ys, hy⟩ := List.getLast?_eq_some_iff.mp hl
      rw [hy, List.dropLast_concat]
      exact app ys l _ rfl
    · exact refl _
  · exact refl _

theorem SameButRawSize.trans₂ {l m n : List Sec} (h1 : List.Forall₂ Sec.SameButRawSize l m)
    (h2 : List.Forall₂ Sec.SameButRawSize m n) : List.Forall₂ Sec.SameButRawSize l n := by
  induction h1 generalizing n with
  | nil => exact h2
  | cons h _ ih =>
    cases h2 with
    | cons h' t => exact .cons (Eq.trans h h') (ih t)

theorem forall₂_split {R : Sec → Sec → Prop} {a b c : List Sec} (h : List.Forall₂ R (a ++ b) c) :
    ∃ c1 c2, c = c1 ++ c2 ∧ List.Forall₂ R a c1 ∧ List.Forall₂ R b c2 := by
  induction a generalizing c with
  | nil => exact ⟨[], c, rfl, .nil, h⟩
  | cons x a ih =>
    cases h with
    | cons h t =>
      obtain ⟨c1, c2, rfl, h1, h2⟩ := ih t
      exact ⟨_ :: c1, c2, rfl, .cons h h1, h2⟩

/-- C10: after any successful sequence of `add_section` calls (with the new sections ending below
    4 GiB) the table is valid: aligned, contiguous, at most 96 sections, counted in the header; sections
    do not overlap; no existing section moved or changed (only the raw size of the section that was last
    is rounded up); the new sections have the contents, names and characteristics they were given.
    Missing for the full claim: the address space bound, see `C10_wrap_overlaps`. -/
theorem C10_add_sections_partial (p p' : Image) (auto : Bool) (new : List Sec) (hv : ValidTable p)
    (room : Room p new) (h : p.addAll auto new = .ok p') :
    ValidTable p' ∧ VirtDisjoint p'.nt.secAlign p'.secs ∧
    ∃ old' new', p'.secs = old' ++ new' ∧ List.Forall₂ Sec.SameButRawSize p.secs old' ∧
      new'.map Sec.data = new.map Sec.data ∧ new'.map Sec.name = new.map Sec.name ∧
      new'.map Sec.chars = new.map Sec.chars := by
  suffices hs : ValidTable p' ∧ ∃ old' new', p'.secs = old' ++ new' ∧
      List.Forall₂ Sec.SameButRawSize p.secs old' ∧
      new'.map Sec.data = new.map Sec.data ∧ new'.map Sec.name = new.map Sec.name ∧
      new'.map Sec.chars = new.map Sec.chars from ⟨hs.1, hs.1.contig.disjoint, hs.2⟩
  induction new generalizing p with
  | nil =>
    cases h
    refine ⟨hv, p'.secs, [], by simp, ?_, rfl, rfl, rfl⟩
    have refl : ∀ l : List Sec, List.Forall₂ Sec.SameButRawSize l l := by
      intro l; induction l with
      | nil => exact .nil
      | cons a l ih => exact .cons rfl ih
    exact refl _
  | cons s l ih =>
    obtain ⟨q, hq, h⟩ := bind_ok_iff.mp h
    obtain ⟨r1, r2, r3, r4⟩ := room.head
    obtain ⟨q1, q2, ⟨v, q3⟩, q4⟩ := addSection_shape hv room hq
    have hvq := addSection_valid hv r1 r2 r3 r4 auto hq
    obtain ⟨w, old', new', e1, e2, e3, e4, e5⟩ := ih q hvq q4 h
    rw [q3] at e2
    obtain ⟨c1, c2, rfl, f1, f2⟩ := forall₂_split e2
    cases f2 with
    | cons g gs =>
      cases gs
      next b =>
      refine ⟨w, c1, b :: new', by rw [e1]; simp, SameButRawSize.trans₂ (adjustLast_same p auto) f1, ?_, ?_, ?_⟩
      · have := congrArg Sec.data g
        simp only [List.map_cons, e3]
        rw [← this]; rfl
      · have := congrArg Sec.name g
        simp only [List.map_cons, e4]
        rw [← this]; rfl
      · have := congrArg Sec.chars g
        simp only [List.map_cons, e5]
        rw [← this]; rfl

/-- C10 (when it throws): an `add_section` call fails exactly if 96 sections exist already or the new
    section has neither contents nor a virtual size. -/
theorem C10_add_section_succeeds_iff (p : Image) (auto : Bool) (s : Sec) (hv : ValidTable p)
    (room : Room p [s]) :
    (∃ p', p.addSection s auto = .ok p') ↔ p.secs.length < 96 ∧ (s.data ≠ [] ∨ s.vsize ≠ 0) := by
  obtain ⟨r1, r2, r3, r4⟩ := room.head
  rw [addSection_eq hv r1 r2 r4]
  split
  · simp; omega
  · split
    · next h => simp [h]
    · next h1 h2 =>
      simp only [Except.ok.injEq, exists_eq', true_iff]
      refine ⟨by omega, ?_⟩
      by_cases h : s.data = []
      · exact .inr (fun h' => h2 ⟨h, h'⟩)
      · exact .inl h

set_option maxRecDepth 4000 in
/-- C10 is false at the end of the address space: two sections are added without exception and the
    second one lies below the first one's range and over the headers (its address wrapped to 0). -/
theorem C10_wrap_overlaps : ∃ (p : Image) (new : List Sec) (p' : Image), ValidTable p ∧
    p.addAll true new = .ok p' ∧ p'.secs.length = 2 ∧ ¬ Contig p'.nt.secAlign p'.secs := by
  refine ⟨createImage .pe32 0x1000 false 3, [{ vsize := 0x1000, va := 0xFFFFF000 }, { vsize := 0x1000 }],
    ?p', ?_, ?h, ?_, ?_⟩
  case p' => exact
      { createImage .pe32 0x1000 false 3 with
        secs := [{ vsize := 0x1000, va := 0xFFFFF000 }, { vsize := 0x1000, va := 0 }]
        nt := { (createImage .pe32 0x1000 false 3).nt with numSections := 2, sizeImage := 0x2000 } }
  · exact { sa := pow2_4096, fa := pow2_512, le := by decide, fits := by intro s hs; simp [createImage] at hs,
            aligned := by intro s hs; simp [createImage] at hs,
            nonempty := by intro s hs; simp [createImage] at hs, contig := trivial, num := by decide,
            count := by decide, pages := by intro s hs; simp [createImage] at hs }
  · decide +kernel
  · rfl
  · intro h
    have := h.1
    revert this
    decide

/-- A fresh image has a valid (empty) section table, and two ordinary sections fit. -/
theorem create_valid (k : Kind) (dll : Bool) (sub : Nat) : ValidTable (createImage k 0x1000 dll sub) := by
  have e1 : (createImage k 0x1000 dll sub).nt.secAlign = 0x1000 := by
    cases k <;> cases dll <;> rfl
  have e2 : (createImage k 0x1000 dll sub).nt.fileAlign = 0x200 := by
    cases k <;> cases dll <;> rfl
  have e3 : (createImage k 0x1000 dll sub).nt.numSections = 0 := by
    cases k <;> cases dll <;> rfl
  have e4 : (createImage k 0x1000 dll sub).secs = [] := rfl
  exact { sa := by rw [e1]; exact pow2_4096, fa := by rw [e2]; exact pow2_512, le := by rw [e1, e2]; decide,
          fits := by simp [e4], aligned := by simp [e4],
          nonempty := by simp [e4], contig := by rw [e4]; trivial, num := by rw [e3, e4]; rfl,
          count := by rw [e4]; decide, pages := by simp [e4] }

example : Room (createImage .pe64 0x1000 false 3) [{ data := [1, 2, 3] }, { vsize := 0x1800, data := [4] }] := by
  refine ⟨?_, by decide⟩
  intro t ht
  simp only [List.mem_cons, List.not_mem_nil, or_false] at ht
  rcases ht with rfl | rfl <;> decide

/-! ### C11: SizeOfImage -/

/-- `SizeOfImage` equals the aligned end of the last section. -/
def SizeOk (p : Image) : Prop :=
  ∃ l, p.secs.getLast? = some l ∧ p.nt.sizeImage = l.va + l.span p.nt.secAlign

theorem SizeOk.aligned {p : Image} (hv : ValidTable p) (h : SizeOk p) : p.nt.secAlign ∣ p.nt.sizeImage := by
  obtain ⟨l, hl, e⟩ := h
  rw [e]
  exact Nat.dvd_add (hv.aligned l (List.mem_of_getLast? hl)) (ceilTo_dvd _ _)

/-- C11 (`add_section`): a correct, aligned `SizeOfImage` stays correct and aligned. -/
theorem C11_add_section_partial (p p' : Image) (auto : Bool) (s : Sec) (hv : ValidTable p)
    (room : Room p [s]) (hsz : SizeOk p) (h : p.addSection s auto = .ok p') :
    SizeOk p' ∧ p'.nt.secAlign ∣ p'.nt.sizeImage := by
  obtain ⟨r1, r2, r3, r4⟩ := room.head
  have hv' := addSection_valid hv r1 r2 r3 r4 auto h
  suffices hs : SizeOk p' from ⟨hs, hs.aligned hv'⟩
  obtain ⟨l, hl, e⟩ := hsz
  have hn : nextVA p s = p.nt.sizeImage := by simp only [nextVA, hl, e]
  rw [addSection_eq hv r1 r2 r4] at h
  split at h
  · simp at h
  · split at h
    · simp at h
    · cases h
      refine ⟨_, by simp; rfl, ?_⟩
      have hsp := Sec.prepared_span (s := s) hv.fa hv.sa hv.le
      have : (Sec.span { s.prepared p.nt.fileAlign p.nt.secAlign with va := nextVA p s } p.nt.secAlign) =
          s.need p.nt.secAlign := by rw [← hsp]; rfl
      dsimp only at this ⊢
      rw [this, hn, w32, Nat.mod_eq_of_lt (by rw [← hn]; exact r4)]

/-- C11 (`update_image_size`, called by every rebuild): afterwards `SizeOfImage` is right. -/
theorem C11_update_image_size (p : Image) (hv : ValidTable p) (hne : p.secs ≠ []) :
    SizeOk p.updateImageSize ∧ p.nt.secAlign ∣ p.updateImageSize.nt.sizeImage := by
  obtain ⟨l, hl⟩ : ∃ l, p.secs.getLast? = some l := by
    cases h : p.secs.getLast? with
    | none => simp at h; exact absurd h hne
    | some l => exact ⟨l, rfl⟩
  have hm := List.mem_of_getLast? hl
  have e : p.updateImageSize.nt.sizeImage = l.va + l.span p.nt.secAlign := by
    simp only [Image.updateImageSize, hl]
    rw [Sec.alignedVS_eq hv.sa (hv.fits l hm), w32, Nat.mod_eq_of_lt (hv.fits l hm).fin]
  have e2 : p.updateImageSize.secs = p.secs := by simp [Image.updateImageSize, hl]
  have e3 : p.updateImageSize.nt.secAlign = p.nt.secAlign := by simp [Image.updateImageSize, hl]
  refine ⟨⟨l, by rw [e2, hl], by rw [e, e3]⟩, ?_⟩
  rw [e]
  exact Nat.dvd_add (hv.aligned l hm) (ceilTo_dvd _ _)

/-- C11 (`set_section_virtual_size`): whatever `SizeOfImage` was before, after changing the virtual size
    of a section it is the end of the last section. Only the last section can be changed. -/
theorem C11_set_section_virtual_size (p p' : Image) (i v : Nat) (s : Sec) (hv : ValidTable p)
    (hs : p.secs[i]? = some s) (hvs : v < 2 ^ 32)
    (room : s.va + ceilTo (max v s.rawSize) p.nt.secAlign < 2 ^ 32)
    (h : p.setSectionVirtualSize i v = .ok p') :
    i + 1 = p.secs.length ∧ SizeOk p' ∧ p'.nt.secAlign ∣ p'.nt.sizeImage ∧
    ∀ j, j ≠ i → p'.secs[j]? = p.secs[j]? := by
  unfold Image.setSectionVirtualSize at h
  rw [hs] at h
  dsimp only at h
  split at h
  · simp at h
  · next hi =>
    have hi : i + 1 = p.secs.length := by omega
    have hmem : s ∈ p.secs := List.mem_of_getElem? hs
    -- the updated section
    have key : ∀ nv : Nat, nv < 2 ^ 32 → s.va + ceilTo nv p.nt.secAlign < 2 ^ 32 → (nv = 0 → s.rawSize = 0) →
        SizeOk ({ p with secs := p.secs.set i { s with vsize := nv } } : Image).updateImageSize ∧
        p.nt.secAlign ∣ ({ p with secs := p.secs.set i { s with vsize := nv } } : Image).updateImageSize.nt.sizeImage := by
      intro nv hnv hfin hz
      have hlast : (p.secs.set i { s with vsize := nv }).getLast? = some { s with vsize := nv } := by
        rw [List.getLast?_eq_getElem?]
        simp only [List.length_set]
        rw [show p.secs.length - 1 = i by omega, List.getElem?_set_self (by omega)]
      have hspan : Sec.span { s with vsize := nv } p.nt.secAlign = ceilTo nv p.nt.secAlign := by
        unfold Sec.span
        dsimp only
        split
        · next h0 => rw [h0, hz h0]
        · rfl
      have hf : Sec.Fits { s with vsize := nv } p.nt.secAlign :=
        ⟨hnv, (hv.fits s hmem).rawSize, (hv.fits s hmem).rawPtr, by rw [hspan]; exact hfin⟩
      have e : ({ p with secs := p.secs.set i { s with vsize := nv } } : Image).updateImageSize.nt.sizeImage
          = s.va + Sec.span { s with vsize := nv } p.nt.secAlign := by
        simp only [Image.updateImageSize, hlast]
        rw [Sec.alignedVS_eq hv.sa hf, w32, Nat.mod_eq_of_lt hf.fin]
      refine ⟨⟨{ s with vsize := nv }, ?_, ?_⟩, ?_⟩
      · simp only [Image.updateImageSize, hlast]
      · rw [e]; simp only [Image.updateImageSize, hlast]
      · rw [e]; exact Nat.dvd_add (hv.aligned s hmem) (ceilTo_dvd _ _)
    have hframe : ∀ (nv j : Nat), j ≠ i →
        ({ p with secs := p.secs.set i { s with vsize := nv } } : Image).updateImageSize.secs[j]? = p.secs[j]? := by
      intro nv j hj
      unfold Image.updateImageSize
      split <;> simp [List.getElem?_set_ne (Ne.symm hj)]
    have hsa : ∀ nv : Nat, ({ p with secs := p.secs.set i { s with vsize := nv } } : Image).updateImageSize.nt.secAlign
        = p.nt.secAlign := by
      intro nv; unfold Image.updateImageSize; split <;> rfl
    have hm := ceilTo_max (x := v) (y := s.rawSize) hv.sa.pos
    rw [hm] at room
    split at h
    · next hv0 =>
      split at h
      · simp at h
      · cases h
        obtain ⟨k1, k2⟩ := key s.rawSize (hv.fits s hmem).rawSize (by omega) (fun h => h)
        exact ⟨hi, k1, by rw [hsa]; exact k2, hframe _⟩
    · next hv0 =>
      cases h
      obtain ⟨k1, k2⟩ := key v hvs (by omega) (fun h => absurd h hv0)
      exact ⟨hi, k1, by rw [hsa]; exact k2, hframe _⟩

set_option maxRecDepth 4000 in
/-- C11 is false for the first section of a freshly created image: `SizeOfImage` then only counts the
    section, not the headers before it. -/
theorem C11_fresh_image_too_small : ∃ (p p' : Image) (s l : Sec), ValidTable p ∧ p.secs = [] ∧ Room p [s] ∧
    p.addSection s true = .ok p' ∧ p'.secs.getLast? = some l ∧
    p'.nt.sizeImage < l.va + l.span p'.nt.secAlign := by
  refine ⟨createImage .pe32 0x1000 false 3,
    { createImage .pe32 0x1000 false 3 with
        secs := [{ vsize := 0x1000, va := 0x1000 }]
        nt := { (createImage .pe32 0x1000 false 3).nt with numSections := 1, sizeImage := 0x1000 } },
    { vsize := 0x1000 }, { vsize := 0x1000, va := 0x1000 }, create_valid _ _ _, rfl, ?_, ?_, ?_, ?_⟩
  · refine ⟨?_, by decide⟩
    intro t ht; simp only [List.mem_singleton] at ht; subst ht; decide
  · decide +kernel
  · rfl
  · decide +kernel

/-- C11 is false for `recalculate_section_sizes` (used by every directory rebuilder): when the data of
    the last section outgrows its virtual size, the section grows but `SizeOfImage` stays behind. -/
theorem C11_recalculate_leaves_size_behind : ∃ (p p' : Image) (l : Sec), ValidTable p ∧ SizeOk p ∧
    p.recalculateSectionSizes 0 true = .ok p' ∧ p'.secs.getLast? = some l ∧
    p'.nt.sizeImage < l.va + l.span p'.nt.secAlign := by
  let s0 : Sec := { vsize := 4, va := 16, rawSize := 4, data := [1, 2, 3, 4, 5] }
  let nt0 : NtHdr := { secAlign := 4, fileAlign := 4, numSections := 1, sizeImage := 20 }
  let p0 : Image := { kind := .pe32, dos := [], lfanew := 0, nt := nt0, secs := [s0] }
  refine ⟨p0, { p0 with secs := [{ s0 with vsize := 8, rawSize := 8 }] }, { s0 with vsize := 8, rawSize := 8 },
    ?_, ⟨s0, rfl, by decide⟩, ?_, rfl, ?_⟩
  · exact { sa := pow2_4, fa := pow2_4, le := by decide,
            fits := by intro s hs; simp only [p0, List.mem_singleton] at hs; subst hs; constructor <;> decide,
            aligned := by intro s hs; simp only [p0, List.mem_singleton] at hs; subst hs; decide,
            nonempty := by intro s hs; simp only [p0, List.mem_singleton] at hs; subst hs; decide,
            contig := trivial, num := rfl, count := by decide,
            pages := by intro s hs; simp only [p0, List.mem_singleton] at hs; subst hs; decide }
  · decide
  · decide

example : SizeOk demoImage := ⟨demoImage.secs[1]'(by decide), rfl, by decide⟩

/-! ### C49: file alignment changes are validated -/

/-- C49: the new alignment is accepted exactly if it is a power of two from 512 up to the section
    alignment; then only that field changes, otherwise the call throws (and there is no new state). -/
theorem C49_set_file_alignment (p : Image) (a : Nat) (ha : a < 2 ^ 32) :
    (512 ≤ a ∧ (∃ k, a = 2 ^ k) ∧ a ≤ p.nt.secAlign →
      p.setFileAlignment a = .ok { p with nt := { p.nt with fileAlign := a } }) ∧
    (¬ (512 ≤ a ∧ (∃ k, a = 2 ^ k) ∧ a ≤ p.nt.secAlign) →
      p.setFileAlignment a = .error (.exn .incorrectFileAlignment)) := by
  have hp : 512 ≤ a → (isPowerOf2 a = true ↔ ∃ k, a = 2 ^ k) := by
    intro h512
    rw [isPowerOf2_iff ha]
    constructor
    · rintro (h | ⟨k, _, h⟩)
      · omega
      · exact ⟨k, h⟩
    · rintro ⟨k, h⟩
      right
      refine ⟨k, ?_, h⟩
      rw [h] at ha
      exact (Nat.pow_lt_pow_iff_right (by decide)).mp ha
  constructor
  · rintro ⟨h1, h2, h3⟩
    unfold Image.setFileAlignment
    rw [throwIf_neg (by omega), ok_bind, throwIf_neg (by simp [(hp h1).mpr h2]), ok_bind,
      throwIf_neg (by omega), ok_bind]
  · intro h
    unfold Image.setFileAlignment
    by_cases h1 : 512 ≤ a
    · rw [throwIf_neg (by omega), ok_bind]
      by_cases h2 : isPowerOf2 a = true
      · have h2' := (hp h1).mp h2
        rw [throwIf_neg (by simp [h2]), ok_bind, throwIf_pos]
        · rfl
        · by_contra h3
          exact h ⟨h1, h2', by omega⟩
      · rw [throwIf_pos (by simpa using h2)]; rfl
    · rw [throwIf_pos (by omega)]; rfl

example : ∃ p', demoImage.setFileAlignment 1024 = .ok p' ∧ p'.nt.fileAlign = 1024 := ⟨_, rfl, rfl⟩

end PE
