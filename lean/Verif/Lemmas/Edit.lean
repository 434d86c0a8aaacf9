/-
Helper lemmas about section editing.
-/
import Verif.Model.Edit
import Verif.Lemmas.Rva
namespace PE

/-- Result of `prepare_section` when nothing leaves the 32-bit range. -/
def Sec.prepared (s : Sec) (fa sa : Nat) : Sec :=
  { s with
    rawSize := ceilTo s.data.length fa
    vsize := if s.vsize = 0 then ceilTo s.data.length fa
             else max (ceilTo s.data.length fa) (ceilTo s.vsize sa) }

theorem prepareSection_eq {fa sa : Nat} (hfa : Pow2 fa) (hsa : Pow2 sa) (hle : fa ≤ sa) {s : Sec}
    (hv : s.vsize < 2 ^ 32) (hneed : s.need sa < 2 ^ 32) :
    prepareSection fa sa s = if s.data = [] ∧ s.vsize = 0 then throwE .zeroSectionSizes
      else .ok (s.prepared fa sa) := by
  have hd := hfa.dvd_of_le hsa hle
  have h0 := ceilTo_max (x := s.data.length) (y := s.vsize) hsa.pos
  unfold Sec.need at hneed
  rw [h0] at hneed
  have h1 := ceilTo_le_ceilTo (x := s.data.length) hfa.pos hsa.pos hd
  have h2 := ceilTo_ge (x := s.data.length) hfa.pos
  have hraw : w32 (alignUp64 s.data.length fa) = ceilTo s.data.length fa := by
    rw [alignUp64_eq hfa (by omega), w32, Nat.mod_eq_of_lt (by omega)]
  have hz : ceilTo s.data.length fa = 0 ↔ s.data = [] := by
    constructor
    · intro h; rw [h] at h2; exact List.length_eq_zero_iff.mp (by omega)
    · intro h; rw [h]; exact ceilTo_zero fa
  unfold prepareSection
  simp only [hraw]
  by_cases hc : s.data = [] ∧ s.vsize = 0
  · rw [throwIf_pos (by exact ⟨hz.mpr hc.1, hc.2⟩), if_pos hc]; rfl
  · rw [throwIf_neg (by rintro ⟨a, b⟩; exact hc ⟨hz.mp a, b⟩), if_neg hc, ok_bind]
    unfold Sec.prepared
    split
    · rfl
    · rw [alignUp_of_dvd hfa (by omega) (ceilTo_dvd _ _), alignUp_of_le hsa hv (by omega)]

theorem Sec.prepared_span {s : Sec} {fa sa : Nat} (hfa : Pow2 fa) (hsa : Pow2 sa) (hle : fa ≤ sa)
    : (s.prepared fa sa).span sa = s.need sa := by
  have hd := hfa.dvd_of_le hsa hle
  have h2 := ceilTo_ge (x := s.data.length) hfa.pos
  have h3 := ceilTo_ge (x := s.vsize) hsa.pos
  unfold Sec.span Sec.need Sec.prepared
  dsimp only
  by_cases hv : s.vsize = 0
  · rw [if_pos hv, hv, Nat.max_zero, ← ceilTo_ceilTo (x := s.data.length) hfa.pos hsa.pos hd]
    split <;> rfl
  · rw [if_neg hv, if_neg (by omega), ceilTo_max hsa.pos, ceilTo_max hsa.pos,
      ceilTo_ceilTo hfa.pos hsa.pos hd, ceilTo_of_dvd (ceilTo_dvd s.vsize sa)]

theorem Sec.prepared_vsize_pos {s : Sec} {fa sa : Nat} (hfa : Pow2 fa) (hsa : Pow2 sa)
    (hne : ¬ (s.data = [] ∧ s.vsize = 0)) : (s.prepared fa sa).vsize ≠ 0 := by
  have h2 := ceilTo_ge (x := s.data.length) hfa.pos
  have h3 := ceilTo_ge (x := s.vsize) hsa.pos
  unfold Sec.prepared
  dsimp only
  split
  · next hv =>
    have : s.data ≠ [] := fun h => hne ⟨h, hv⟩
    have := List.length_pos_iff.mpr this
    omega
  · omega

theorem Contig.append_single {a : Nat} {l : List Sec} {s : Sec} (h : Contig a l)
    (hs : ∀ x, l.getLast? = some x → s.va = x.va + x.span a) : Contig a (l ++ [s]) := by
  induction l with
  | nil => trivial
  | cons x l ih =>
    cases l with
    | nil => exact ⟨hs x rfl, trivial⟩
    | cons y l =>
      exact ⟨h.1, ih h.2 (fun z hz => hs z (by rw [List.getLast?_cons_cons]; exact hz))⟩

theorem Contig.set_last {a : Nat} {l : List Sec} {x y : Sec} (h : Contig a (l ++ [x]))
    (hv : y.va = x.va) : Contig a (l ++ [y]) := by
  induction l with
  | nil => trivial
  | cons z l ih =>
    cases l with
    | nil => exact ⟨by rw [hv]; exact h.1, trivial⟩
    | cons w l => exact ⟨h.1, ih h.2⟩

theorem Contig.disjoint {a : Nat} : ∀ {l : List Sec}, Contig a l → VirtDisjoint a l := by
  have mono : ∀ (l : List Sec) (s : Sec), Contig a (s :: l) → ∀ t ∈ l, s.va + s.span a ≤ t.va := by
    intro l
    induction l with
    | nil => intro s _ t ht; simp at ht
    | cons x l ih =>
      intro s h t ht
      have h1 := h.1
      rcases List.mem_cons.mp ht with rfl | ht
      · omega
      · have := ih x h.2 t ht
        omega
  intro l
  induction l with
  | nil => intro _; exact List.Pairwise.nil
  | cons s l ih =>
    intro h
    refine List.Pairwise.cons (fun t ht => .inl (mono l s h t ht)) ?_
    cases l with
    | nil => exact List.Pairwise.nil
    | cons x l => exact ih h.2

/-- The section list after `add_section` adjusted the raw size of the previously last section. -/
def adjustLast (p : Image) (auto : Bool) : List Sec :=
  match p.secs.getLast? with
  | some last => if auto then p.secs.dropLast ++
      [{ last with rawSize := w32 (alignUp64 last.data.length p.nt.fileAlign) }] else p.secs
  | none => p.secs

theorem ValidTable.nextVA_dvd {p : Image} (hv : ValidTable p) (s : Sec) : p.nt.secAlign ∣ nextVA p s := by
  unfold nextVA
  split
  · next l hl => exact Nat.dvd_add (hv.aligned l (List.mem_of_getLast? hl)) (ceilTo_dvd _ _)
  · exact ceilTo_dvd _ _

theorem addSection_eq {p : Image} (hv : ValidTable p) {s : Sec} (hs : s.vsize < 2 ^ 32)
    (hva : s.va < 2 ^ 32) (room : nextVA p s + s.need p.nt.secAlign < 2 ^ 32) (auto : Bool) :
    p.addSection s auto = if 96 ≤ p.secs.length then throwE .noMoreSectionsCanBeAdded
      else if s.data = [] ∧ s.vsize = 0 then throwE .zeroSectionSizes
      else .ok { p with
        secs := adjustLast p auto ++ [{ s.prepared p.nt.fileAlign p.nt.secAlign with va := nextVA p s }]
        nt := { p.nt with numSections := p.secs.length + 1,
                          sizeImage := w32 (p.nt.sizeImage + s.need p.nt.secAlign) } } := by
  unfold Image.addSection
  by_cases h96 : 96 ≤ p.secs.length
  · rw [if_pos h96, throwIf_pos h96]; rfl
  · rw [if_neg h96, throwIf_neg (by omega), ok_bind,
      prepareSection_eq hv.fa hv.sa hv.le hs (by omega)]
    by_cases hz : s.data = [] ∧ s.vsize = 0
    · rw [if_pos hz, if_pos hz]; rfl
    · rw [if_neg hz, if_neg hz, ok_bind]
      have hd := hv.nextVA_dvd s
      have hsp : ∀ v, ({ s.prepared p.nt.fileAlign p.nt.secAlign with va := v } : Sec).alignedVS
          p.nt.secAlign = s.need p.nt.secAlign := by
        intro v
        have h1 := Sec.prepared_span (s := s) hv.fa hv.sa hv.le
        have h2 := Sec.prepared_vsize_pos hv.fa hv.sa hz
        unfold Sec.alignedVS
        unfold Sec.span at h1
        rw [if_neg h2] at h1
        dsimp only
        rw [if_neg (by rintro ⟨_, h⟩; exact h2 h)]
        rw [alignUp_of_le hv.sa _ (by omega), h1]
        have := ceilTo_ge (x := (s.prepared p.nt.fileAlign p.nt.secAlign).vsize) hv.sa.pos
        omega
      unfold adjustLast
      unfold nextVA at hd room ⊢
      cases hl : p.secs.getLast? with
      | none =>
        rw [hl] at hd room
        dsimp only at hd room
        have hnil : p.secs = [] := by simpa using hl
        have hx := ceilTo_ge (x := if s.va = 0 then p.nt.sizeHeaders else s.va) hv.sa.pos
        have hva' : (if (s.prepared p.nt.fileAlign p.nt.secAlign).va = 0 then
            alignUp p.nt.sizeHeaders p.nt.secAlign
            else alignUp (s.prepared p.nt.fileAlign p.nt.secAlign).va p.nt.secAlign) =
            ceilTo (if s.va = 0 then p.nt.sizeHeaders else s.va) p.nt.secAlign := by
          show (if s.va = 0 then _ else alignUp s.va _) = _
          split
          · next h => rw [if_pos h] at hx room; exact alignUp_of_le hv.sa (by omega) (by omega)
          · next h => rw [if_neg h] at room; exact alignUp_of_le hv.sa hva (by omega)
        simp only [hva', hsp]
        simp [hnil, w16]
      | some l =>
        rw [hl] at hd room
        have hm := List.mem_of_getLast? hl
        have hva' : alignUp (w32 (l.va + l.alignedVS p.nt.secAlign)) p.nt.secAlign =
            l.va + l.span p.nt.secAlign := by
          rw [Sec.alignedVS_eq hv.sa (hv.fits l hm), w32, Nat.mod_eq_of_lt (hv.fits l hm).fin]
          exact alignUp_of_dvd hv.sa (hv.fits l hm).fin hd
        have hne : p.secs ≠ [] := by intro h; simp [h] at hl
        have hlen := List.length_pos_iff.mpr hne
        simp only [hva', hsp]
        cases auto
        · simp only [Bool.false_eq_true, if_false, List.length_append, List.length_singleton, w16]
          rw [Nat.mod_eq_of_lt (by omega)]
        · simp only [if_true, List.length_append, List.length_singleton, List.length_dropLast, w16]
          rw [Nat.mod_eq_of_lt (by omega), show p.secs.length - 1 + 1 + 1 = p.secs.length + 1 by omega]

/-- Rounding up the raw size of a section in a valid table does not change the space it occupies. -/
theorem adjusted_span {p : Image} (hv : ValidTable p) {l : Sec} (hl : l ∈ p.secs) :
    ({ l with rawSize := w32 (alignUp64 l.data.length p.nt.fileAlign) } : Sec).span p.nt.secAlign =
      l.span p.nt.secAlign := by
  have hp := hv.pages l hl
  have hf := (hv.fits l hl).fin
  have hd := hv.fa.dvd_of_le hv.sa hv.le
  unfold Sec.span at hf ⊢
  dsimp only
  split
  · next h =>
    rw [if_pos h] at hf
    have h1 := hp.2 h
    have h2 := ceilTo_le_ceilTo (x := l.data.length) hv.fa.pos hv.sa.pos hd
    rw [alignUp64_eq hv.fa (by omega), w32, Nat.mod_eq_of_lt (by omega),
      ceilTo_ceilTo hv.fa.pos hv.sa.pos hd, h1]
  · rfl

theorem adjustLast_valid {p : Image} (hv : ValidTable p) (auto : Bool) :
    (∀ s ∈ adjustLast p auto, s.Fits p.nt.secAlign ∧ p.nt.secAlign ∣ s.va ∧
      ¬ (s.vsize = 0 ∧ s.rawSize = 0) ∧ s.data.length < 2 ^ 32 ∧
      (s.vsize = 0 → ceilTo s.data.length p.nt.secAlign = ceilTo s.rawSize p.nt.secAlign)) ∧
    Contig p.nt.secAlign (adjustLast p auto) ∧
    (∀ x, (adjustLast p auto).getLast? = some x → ∀ s, nextVA p s = x.va + x.span p.nt.secAlign) := by
  have hsame : (∀ s ∈ p.secs, s.Fits p.nt.secAlign ∧ p.nt.secAlign ∣ s.va ∧
      ¬ (s.vsize = 0 ∧ s.rawSize = 0) ∧ s.data.length < 2 ^ 32 ∧
      (s.vsize = 0 → ceilTo s.data.length p.nt.secAlign = ceilTo s.rawSize p.nt.secAlign)) :=
    fun s hs => ⟨hv.fits s hs, hv.aligned s hs, hv.nonempty s hs, (hv.pages s hs).1, (hv.pages s hs).2⟩
  unfold adjustLast
  cases hl : p.secs.getLast? with
  | none => exact ⟨hsame, hv.contig, by intro x hx; rw [hl] at hx; cases hx⟩
  | some l =>
    have hm := List.mem_of_getLast? hl
    have hsplit : p.secs = p.secs.dropLast ++ [l] := by
      obtain ⟨ys, h⟩ := List.getLast?_eq_some_iff.mp hl
      rw [h]; simp
    cases auto
    · refine ⟨hsame, hv.contig, ?_⟩
      intro x hx s
      simp only [Bool.false_eq_true, if_false] at hx
      simp [nextVA, hx]
    · simp only [if_true]
      have hspan := adjusted_span hv hm
      have hf := hv.fits l hm
      refine ⟨?_, ?_, ?_⟩
      · intro s hs
        rcases List.mem_append.mp hs with hs | hs
        · exact hsame s (by rw [hsplit]; exact List.mem_append_left _ hs)
        · simp only [List.mem_singleton] at hs
          have hsv : s.vsize = l.vsize := by rw [hs]
          have hsd : s.data = l.data := by rw [hs]
          have hsva : s.va = l.va := by rw [hs]
          have hss : s.span p.nt.secAlign = l.span p.nt.secAlign := by rw [hs]; exact hspan
          have hpages := hv.pages l hm
          have h1 : s.rawSize < 2 ^ 32 := by rw [hs]; exact Nat.mod_lt _ (by decide)
          have hz : s.vsize = 0 → ceilTo s.data.length p.nt.secAlign = ceilTo s.rawSize p.nt.secAlign := by
            intro h0
            have := hpages.2 (by rw [← hsv]; exact h0)
            unfold Sec.span at hss
            rw [if_pos h0, if_pos (by rw [← hsv]; exact h0)] at hss
            rw [hss, hsd]; exact this
          refine ⟨⟨by rw [hsv]; exact hf.vsize, h1, by rw [hs]; exact hf.rawPtr, by rw [hsva, hss]; exact hf.fin⟩,
            by rw [hsva]; exact hv.aligned l hm, ?_, by rw [hsd]; exact hpages.1, hz⟩
          rintro ⟨h0, h2⟩
          have h3 := hz h0
          rw [h2, ceilTo_zero, hsd, hpages.2 (by rw [← hsv]; exact h0)] at h3
          have := ceilTo_ge (x := l.rawSize) hv.sa.pos
          exact hv.nonempty l hm ⟨by rw [← hsv]; exact h0, by omega⟩
      · have := hv.contig
        rw [hsplit] at this
        exact this.set_last rfl
      · intro x hx s
        simp only [List.getLast?_append, List.getLast?_singleton, Option.some_or, Option.some.injEq] at hx
        subst hx
        simp only [nextVA, hl]
        rw [hspan]

theorem addSection_valid {p p' : Image} (hv : ValidTable p) {s : Sec} (hs : s.vsize < 2 ^ 32)
    (hva : s.va < 2 ^ 32) (hrp : s.rawPtr < 2 ^ 32) (room : nextVA p s + s.need p.nt.secAlign < 2 ^ 32) (auto : Bool)
    (h : p.addSection s auto = .ok p') : ValidTable p' := by
  rw [addSection_eq hv hs hva room] at h
  split at h
  · simp at h
  · split at h
    · simp at h
    · next h96 hz =>
      cases h
      obtain ⟨a1, a2, a3⟩ := adjustLast_valid hv auto
      have hsp := Sec.prepared_span (s := s) hv.fa hv.sa hv.le
      have hvp := Sec.prepared_vsize_pos hv.fa hv.sa hz
      have hnew : ∀ v, ({ s.prepared p.nt.fileAlign p.nt.secAlign with va := v } : Sec).span p.nt.secAlign
          = s.need p.nt.secAlign := by intro v; rw [← hsp]; rfl
      have hvs := ceilTo_ge (x := (s.prepared p.nt.fileAlign p.nt.secAlign).vsize) hv.sa.pos
      have hsp' := hsp
      unfold Sec.span at hsp'
      rw [if_neg hvp] at hsp'
      have hd := hv.fa.dvd_of_le hv.sa hv.le
      have hr1 := ceilTo_le_ceilTo (x := s.data.length) hv.fa.pos hv.sa.pos hd
      have hr2 : ceilTo s.data.length p.nt.secAlign ≤ s.need p.nt.secAlign :=
        ceilTo_mono hv.sa.pos (Nat.le_max_left _ _)
      have hr3 := ceilTo_ge (x := s.data.length) hv.sa.pos
      have hnewF : Sec.Fits { s.prepared p.nt.fileAlign p.nt.secAlign with va := nextVA p s } p.nt.secAlign :=
        ⟨by show (s.prepared p.nt.fileAlign p.nt.secAlign).vsize < _; omega,
         by show ceilTo s.data.length p.nt.fileAlign < _; omega, hrp,
         by rw [hnew]; exact room⟩
      have hlen : (adjustLast p auto).length = p.secs.length := by
        unfold adjustLast
        split
        · next l hl =>
          have hne : p.secs ≠ [] := by intro h; simp [h] at hl
          have := List.length_pos_iff.mpr hne
          split
          · simp; omega
          · rfl
        · rfl
      exact {
        sa := hv.sa, fa := hv.fa, le := hv.le
        fits := by
          intro t ht
          rcases List.mem_append.mp ht with ht | ht
          · exact (a1 t ht).1
          · simp only [List.mem_singleton] at ht; rw [ht]; exact hnewF
        aligned := by
          intro t ht
          rcases List.mem_append.mp ht with ht | ht
          · exact (a1 t ht).2.1
          · simp only [List.mem_singleton] at ht; rw [ht]; exact hv.nextVA_dvd s
        nonempty := by
          intro t ht
          rcases List.mem_append.mp ht with ht | ht
          · exact (a1 t ht).2.2.1
          · simp only [List.mem_singleton] at ht; rw [ht]; exact fun h => hvp h.1
        contig := a2.append_single (fun x hx => a3 x hx s)
        num := by simp [hlen]
        count := by simp [hlen]; omega
        pages := by
          intro t ht
          rcases List.mem_append.mp ht with ht | ht
          · exact (a1 t ht).2.2.2
          · simp only [List.mem_singleton] at ht; rw [ht]
            exact ⟨by show s.data.length < _; omega, fun h => absurd h hvp⟩ }

end PE
