/-
Lemmas for C83.
-/
import Verif.Spec.Mapped
import Verif.Lemmas.Basic
namespace PE

theorem SecObj.Current.unmap {o : SecObj} {a : Nat} (h : o.Current a) :
    o.unmapVirtual.hdr = o.hdr ∧ o.unmapVirtual.oldSize = none ∧ o.unmapVirtual.buf = o.contents.data := by
  rcases h with h | ⟨d, h1, h2⟩
  · simp [SecObj.unmapVirtual, SecObj.contents, h]
  · simp only [SecObj.unmapVirtual, SecObj.contents, h1, h2, true_and]
    rw [resize_of_ge (by simp)]

theorem SecObj.contents_of_none {o : SecObj} (h : o.oldSize = none) :
    o.contents = { o.hdr with data := o.buf } := by
  simp [SecObj.contents, h]

theorem SecObj.Current.unmap_contents {o : SecObj} {a : Nat} (h : o.Current a) :
    o.unmapVirtual.contents = o.contents := by
  obtain ⟨h1, h2, h3⟩ := h.unmap
  rw [SecObj.contents_of_none h2, h1, h3]
  rfl

theorem SecObj.Current.map {o : SecObj} {a : Nat} (h : o.Current a) :
    (o.mapVirtual a).hdr = o.hdr ∧ (o.mapVirtual a).contents = o.contents ∧ (o.mapVirtual a).Current a ∧
      (o.mapVirtual a).buf = o.contents.virt a := by
  rcases h with h | ⟨d, h1, h2⟩
  · unfold SecObj.mapVirtual
    split
    · next hc =>
      have e : resize o.buf (o.hdr.alignedVS a) = o.buf ++ zeros (o.hdr.alignedVS a - o.buf.length) :=
        resize_of_le (by omega)
      refine ⟨rfl, ?_, .inr ⟨o.buf, rfl, e⟩, ?_⟩
      · simp [SecObj.contents, h, e]
      · simp only [e, SecObj.contents, h]
        rfl
    · next hc =>
      refine ⟨rfl, rfl, .inl h, ?_⟩
      have : o.hdr.alignedVS a - o.buf.length = 0 := by
        simp only [h, true_and] at hc
        omega
      have e2 : ({ o.hdr with data := o.buf } : Sec).alignedVS a = o.hdr.alignedVS a := rfl
      simp [SecObj.contents, h, Sec.virt, e2, this]
  · have e : o.mapVirtual a = o := by
      unfold SecObj.mapVirtual
      rw [if_neg (by simp [h1])]
    rw [e]
    refine ⟨rfl, rfl, .inr ⟨d, h1, h2⟩, ?_⟩
    have e2 : ({ o.hdr with data := d } : Sec).alignedVS a = o.hdr.alignedVS a := rfl
    have e3 : o.contents = { o.hdr with data := d } := by simp [SecObj.contents, h1, h2]
    rw [e3, h2, Sec.virt, e2]

theorem SecObj.Current.view {o : SecObj} {a : Nat} (h : o.Current a) (t : DataType) :
    (o.view t a).2 = o.contents.view t a ∧ (o.view t a).1.contents = o.contents ∧ (o.view t a).1.Current a := by
  cases t
  · exact ⟨h.unmap.2.2, h.unmap_contents, .inl h.unmap.2.1⟩
  · exact ⟨h.map.2.2.2, h.map.2.1, h.map.2.2.1⟩

theorem SecObj.Current.viewLen {o : SecObj} {a : Nat} (h : o.Current a) (t : DataType) :
    (o.viewLen t a).2 = o.contents.viewLen t a ∧ (o.viewLen t a).1.contents = o.contents ∧
      (o.viewLen t a).1.Current a := by
  cases t
  · exact ⟨congrArg List.length h.unmap.2.2, h.unmap_contents, .inl h.unmap.2.1⟩
  · exact ⟨rfl, rfl, h⟩

/-- `f` on objects does what `g` does on plain sections, and leaves the contents alone. -/
def SimObj {α : Type} (a : Nat) (f : SecObj → SecObj × Res α) (g : Sec → Res α) : Prop :=
  ∀ o : SecObj, o.Current a → (f o).2 = g o.contents ∧ (f o).1.contents = o.contents ∧ (f o).1.Current a

/-- A step of the image with mapping state answers like the plain image, and leaves it alone. -/
def SimImg {α : Type} (m : MImage) (r : MImage × α) (x : α) : Prop :=
  r.2 = x ∧ r.1.plain = m.plain ∧ r.1.Current

theorem SimImg.refl {α : Type} {m : MImage} (h : m.Current) (x : α) : SimImg m (m, x) x := ⟨rfl, rfl, h⟩

theorem list_set_self {α : Type} : ∀ {l : List α} {i : Nat} {a : α}, l[i]? = some a → l.set i a = l
  | [], _, _, h => by simp at h
  | b :: l, 0, a, h => by simp at h; simp [h]
  | b :: l, i + 1, a, h => by simp at h; simp [list_set_self h]

theorem list_getElem?_of_mem_set {α : Type} {l : List α} {i : Nat} {a x : α} (h : x ∈ l.set i a) : x = a ∨ x ∈ l := by
  rcases List.mem_or_eq_of_mem_set h with h | h
  · exact .inr h
  · exact .inl h

/-- Replacing the object at `i` by one with the contents `s`. -/
theorem MImage.plain_set (m : MImage) (i : Nat) (o : SecObj) :
    ({ m with objs := m.objs.set i o } : MImage).plain = { m.plain with secs := m.plain.secs.set i o.contents } := by
  simp [MImage.plain, List.map_set]

theorem MImage.plain_get (m : MImage) (i : Nat) : m.plain.secs[i]? = m.objs[i]?.map SecObj.contents := by
  simp [MImage.plain]

theorem MImage.Current.set {m : MImage} (h : m.Current) (i : Nat) {o : SecObj} (ho : o.Current m.img.nt.secAlign) :
    ({ m with objs := m.objs.set i o } : MImage).Current := by
  intro x hx
  rcases list_getElem?_of_mem_set hx with rfl | hx
  · exact ho
  · exact h x hx

theorem MImage.Current.get {m : MImage} (h : m.Current) {i : Nat} {o : SecObj} (ho : m.objs[i]? = some o) :
    o.Current m.img.nt.secAlign := h o (List.mem_of_getElem? ho)

theorem SimObj.onObj {α : Type} {m : MImage} (hm : m.Current) {f : SecObj → SecObj × Res α} {g : Sec → Res α}
    (h : SimObj m.img.nt.secAlign f g) (i : Nat) : SimImg m (m.onObj i f) (m.plain.withSec i g) := by
  unfold MImage.onObj Image.withSec
  rw [m.plain_get]
  cases hi : m.objs[i]? with
  | none => exact SimImg.refl hm _
  | some o =>
    obtain ⟨h1, h2, h3⟩ := h o (hm.get hi)
    refine ⟨h1, ?_, hm.set i h3⟩
    dsimp only
    rw [m.plain_set, h2, list_set_self]
    rw [m.plain_get, hi]
    rfl

theorem MImage.containsRva_contents (o : SecObj) (a rva : Nat) :
    o.contents.containsRva a rva = o.hdr.containsRva a rva := rfl

theorem MImage.idxFromRva_eq (m : MImage) (rva : Nat) : m.idxFromRva rva = m.plain.secIdxFromRva rva := by
  unfold MImage.idxFromRva Image.secIdxFromRva MImage.plain
  dsimp only
  rw [List.findIdx?_map]
  rfl

theorem find?_of_findIdx? {α : Type} {p : α → Bool} : ∀ {l : List α},
    (∀ i, l.findIdx? p = some i → l.find? p = l[i]? ∧ ∃ a, l[i]? = some a) ∧ (l.findIdx? p = none → l.find? p = none)
  | [] => by simp
  | a :: l => by
    have ih := find?_of_findIdx? (p := p) (l := l)
    rw [List.findIdx?_cons, List.find?_cons]
    cases hp : p a with
    | true => simp
    | false =>
      simp only [Bool.false_eq_true, if_false, Option.map_eq_some_iff, Option.map_eq_none_iff]
      refine ⟨?_, ih.2⟩
      rintro i ⟨j, hj, rfl⟩
      obtain ⟨e1, b, e2⟩ := ih.1 j hj
      exact ⟨by rw [e1]; simp, b, by simpa using e2⟩

theorem Image.sectionFromRva_idx {α : Type} (p : Image) (rva : Nat) (g : Sec → Res α) :
    (p.sectionFromRva rva >>= g) = (p.secIdxFromRva rva >>= fun i => p.withSec i g) := by
  unfold Image.sectionFromRva Image.secIdxFromRva Image.withSec
  have h := find?_of_findIdx? (p := fun s : Sec => s.containsRva p.nt.secAlign rva) (l := p.secs)
  cases hf : p.secs.findIdx? (fun s : Sec => s.containsRva p.nt.secAlign rva) with
  | none => rw [h.2 hf]; rfl
  | some i =>
    obtain ⟨e1, s, e2⟩ := h.1 i hf
    rw [e1, e2]
    show g s = _
    simp only [ok_bind, e2]

theorem SimObj.onRva {α : Type} {m : MImage} (hm : m.Current) {f : SecObj → SecObj × Res α} {g : Sec → Res α}
    (h : SimObj m.img.nt.secAlign f g) (rva : Nat) :
    SimImg m (m.onRva rva f) (m.plain.sectionFromRva rva >>= g) := by
  rw [Image.sectionFromRva_idx]
  unfold MImage.onRva
  rw [m.idxFromRva_eq]
  cases m.plain.secIdxFromRva rva with
  | error e => exact SimImg.refl hm _
  | ok i => exact h.onObj hm i

theorem SimObj.readT (n rva : Nat) (t : DataType) (a : Nat) :
    SimObj a (fun o => o.readT n rva t a) (fun s =>
      if (s.view t a).length < sub32 rva s.va + n then throwE .rvaNotExists
      else readN (s.view t a) (sub32 rva s.va) n) := by
  intro o ho
  obtain ⟨h1, h2, h3⟩ := ho.view t
  refine ⟨?_, h2, h3⟩
  unfold SecObj.readT
  dsimp only
  rw [h1]
  rfl

theorem MImage.Current.perform {m : MImage} (hm : m.Current) (q : Ask) : SimImg m (m.perform q) (m.plain.answer q) := by
  cases q with
  | bare =>
    refine ⟨?_, rfl, hm⟩
    simp [MImage.perform, Image.answer, MImage.plain, List.map_map, Function.comp_def, SecObj.contents, Sec.bare]
    rfl
  | total rva t h =>
    unfold MImage.perform Image.answer MImage.dataLenTotal Image.dataLenTotal
    dsimp only
    split
    · next hc => rw [if_pos (by exact hc)]; exact SimImg.refl hm _
    · next hc =>
      rw [if_neg (by exact hc)]
      refine SimObj.onRva hm (f := _) (g := _) ?_ rva
      intro o ho
      obtain ⟨h1, h2, h3⟩ := ho.viewLen t
      exact ⟨by dsimp only; rw [h1]; rfl, h2, h3⟩
  | «from» rva r t h =>
    unfold MImage.perform Image.answer MImage.dataLenFrom Image.dataLenFrom
    dsimp only
    split
    · next hc => rw [if_pos (by exact hc)]; exact SimImg.refl hm _
    · next hc =>
      rw [if_neg (by exact hc)]
      refine SimObj.onRva hm (f := _) (g := _) ?_ rva
      intro o ho
      obtain ⟨h1, h2, h3⟩ := ho.viewLen t
      dsimp only
      split
      · next hv => rw [if_pos (by exact hv)]; exact ⟨rfl, rfl, ho⟩
      · next hv => rw [if_neg (by exact hv)]; exact ⟨by dsimp only; rw [h1]; rfl, h2, h3⟩
  | read n rva t h =>
    unfold MImage.perform Image.answer MImage.readT Image.readT
    dsimp only
    split
    · next hc => rw [if_pos (by exact hc)]; exact SimImg.refl hm _
    · next hc =>
      rw [if_neg (by exact hc)]
      exact SimObj.onRva hm (SimObj.readT n rva t _) rva
  | ptr rva t h =>
    unfold MImage.perform Image.answer MImage.ptrFromRva Image.ptrFromRva
    dsimp only
    split
    · next hc => rw [if_pos (by exact hc)]; exact SimImg.refl hm _
    · next hc =>
      rw [if_neg (by exact hc)]
      refine SimObj.onRva hm (f := _) (g := _) ?_ rva
      intro o ho
      obtain ⟨h1, h2, h3⟩ := ho.view t
      exact ⟨by dsimp only; rw [h1]; rfl, h2, h3⟩
  | lenIn i r t =>
    unfold MImage.perform Image.answer MImage.dataLenSec
    refine SimObj.onObj hm (f := _) (g := _) ?_ i
    intro o ho
    unfold Image.dataLenSec
    obtain ⟨h1, h2, h3⟩ := ho.viewLen t
    dsimp only
    by_cases hv : o.hdr.containsRva m.img.nt.secAlign r = true
    · have hv' : o.contents.containsRva m.plain.nt.secAlign r = true := hv
      rw [if_pos hv, if_pos hv']
      exact ⟨by dsimp only; rw [h1]; rfl, h2, h3⟩
    · have hv' : ¬ o.contents.containsRva m.plain.nt.secAlign r = true := hv
      rw [if_neg hv, if_neg hv']
      exact ⟨rfl, rfl, ho⟩
  | readIn n i rva t =>
    unfold MImage.perform Image.answer MImage.readTSec
    refine SimObj.onObj hm (f := _) (g := _) ?_ i
    intro o ho
    unfold Image.readTSec
    dsimp only
    split
    · next hv => rw [if_pos (by exact hv)]; exact SimObj.readT n rva t _ o ho
    · next hv => rw [if_neg (by exact hv)]; exact ⟨rfl, rfl, ho⟩
  | ptrIn i rva t =>
    unfold MImage.perform Image.answer MImage.ptrFromRvaSec
    refine SimObj.onObj hm (f := _) (g := _) ?_ i
    intro o ho
    unfold Image.ptrFromRvaSec
    obtain ⟨h1, h2, h3⟩ := ho.view t
    dsimp only
    split
    · next hv => rw [if_pos (by exact hv)]; exact ⟨by dsimp only; rw [h1]; rfl, h2, h3⟩
    · next hv => rw [if_neg (by exact hv)]; exact ⟨rfl, rfl, ho⟩
  | view i t =>
    unfold MImage.perform Image.answer
    refine SimObj.onObj hm (f := _) (g := _) ?_ i
    intro o ho
    obtain ⟨h1, h2, h3⟩ := ho.view t
    exact ⟨by dsimp only; rw [h1]; rfl, h2, h3⟩
  | empty i =>
    unfold MImage.perform Image.answer
    refine SimObj.onObj hm (f := _) (g := _) ?_ i
    intro o ho
    refine ⟨?_, rfl, ho⟩
    dsimp only
    apply congrArg Except.ok
    rcases ho with h | ⟨d, h1, h2⟩
    · simp [SecObj.isEmpty, SecObj.contents, h]
    · cases d <;> simp [SecObj.isEmpty, SecObj.contents, h1, h2]

/-! ### Changes -/

/-- A change of the image with mapping state does what the change of the plain image does. -/
def SimRes (x : Res MImage) (y : Res Image) : Prop :=
  x.map MImage.plain = y ∧ ∀ m', x = .ok m' → m'.Current

theorem SimRes.error (e : Fault) : SimRes (.error e) (.error e) := ⟨rfl, fun _ h => by cases h⟩

theorem SimRes.ok {m : MImage} {p : Image} (h : m.Current) (e : m.plain = p) : SimRes (.ok m) (.ok p) :=
  ⟨congrArg Except.ok e, fun _ h' => by cases h'; exact h⟩

theorem SimRes.cases {x : Res MImage} {y : Res Image} (h : SimRes x y) :
    (∃ e, x = .error e ∧ y = .error e) ∨ ∃ m, x = .ok m ∧ y = .ok m.plain ∧ m.Current := by
  cases x with
  | error e => exact .inl ⟨e, rfl, h.1.symm⟩
  | ok m => exact .inr ⟨m, rfl, h.1.symm, h.2 m rfl⟩

theorem Image.setAcc_secAlign (p : Image) (a : Acc) (v : Nat) : (p.setAcc a v).nt.secAlign = p.nt.secAlign := by
  cases a <;> rfl

theorem MImage.updateImageSize_plain (m : MImage) : m.updateImageSize.plain = m.plain.updateImageSize := by
  unfold MImage.updateImageSize Image.updateImageSize MImage.plain
  dsimp only
  rw [List.getLast?_map]
  cases m.objs.getLast? <;> rfl

theorem MImage.Current.updateImageSize {m : MImage} (h : m.Current) : m.updateImageSize.Current := h

theorem SecObj.Current.isEmpty {o : SecObj} {a : Nat} (ho : o.Current a) : o.isEmpty = o.contents.data.isEmpty := by
  rcases ho with h | ⟨d, h1, h2⟩
  · simp [SecObj.isEmpty, SecObj.contents, h]
  · cases d <;> simp [SecObj.isEmpty, SecObj.contents, h1, h2]

theorem SecObj.setVirtualSize_contents (o : SecObj) (v : Nat) :
    (o.setVirtualSize v).contents = { o.contents with vsize := v } := rfl

theorem MImage.Current.setVSize {m : MImage} (hm : m.Current) (i v : Nat)
    (hs : ∀ o, m.objs[i]? = some o → o.oldSize = none) :
    SimRes (m.setSectionVirtualSize i v) (m.plain.setSectionVirtualSize i v) := by
  unfold MImage.setSectionVirtualSize Image.setSectionVirtualSize
  rw [m.plain_get]
  have hl : m.plain.secs.length = m.objs.length := by simp [MImage.plain]
  rw [hl]
  cases hi : m.objs[i]? with
  | none => exact SimRes.error _
  | some o =>
    have hn := hs o hi
    have ho := hm.get hi
    have key : ∀ v, SimRes (.ok ({ m with objs := m.objs.set i (o.setVirtualSize v) } : MImage).updateImageSize)
        (.ok ({ m.plain with secs := m.plain.secs.set i { o.contents with vsize := v } } : Image).updateImageSize) := by
      intro v
      refine SimRes.ok (MImage.Current.updateImageSize (hm.set i (.inl hn))) ?_
      rw [MImage.updateImageSize_plain, m.plain_set]
      rfl
    dsimp only [Option.map_some]
    split
    · exact SimRes.error _
    · split
      · rw [ho.isEmpty]
        have e : o.contents.empty = o.contents.data.isEmpty := rfl
        rw [e]
        split
        · exact SimRes.error _
        · exact key _
      · exact key _

/-- Objects whose extension is cut off at the right place. -/
def SecObj.Intact (o : SecObj) : Prop := ∀ n, o.oldSize = some n → n ≤ o.buf.length

theorem SecObj.Current.intact {o : SecObj} {a : Nat} (h : o.Current a) : o.Intact := by
  intro n hn
  rcases h with h | ⟨d, h1, h2⟩
  · rw [h] at hn; cases hn
  · rw [h1] at hn; cases hn; rw [h2]; simp

theorem SecObj.Intact.unmap {o : SecObj} (h : o.Intact) :
    o.unmapVirtual.hdr = o.hdr ∧ o.unmapVirtual.oldSize = none ∧ o.unmapVirtual.buf = o.contents.data := by
  unfold SecObj.unmapVirtual SecObj.contents
  cases ho : o.oldSize with
  | none => exact ⟨rfl, ho, rfl⟩
  | some n => exact ⟨rfl, rfl, resize_of_ge (h n ho)⟩

theorem SecObj.Intact.prepare {o : SecObj} (h : o.Intact) (fa sa : Nat) :
    (o.prepare fa sa).map SecObj.contents = prepareSection fa sa o.contents ∧
      ∀ o', o.prepare fa sa = .ok o' → o'.oldSize = none := by
  obtain ⟨h1, h2, h3⟩ := h.unmap
  have e1 : o.getRawData.1 = o.unmapVirtual := rfl
  have e2 : o.getRawData.2 = o.unmapVirtual.buf := rfl
  have e3 : o.contents.vsize = o.hdr.vsize := rfl
  unfold SecObj.prepare prepareSection
  dsimp only
  rw [e1, e2, h1, h3, e3]
  by_cases hc : w32 (alignUp64 o.contents.data.length fa) = 0 ∧ o.hdr.vsize = 0
  · rw [throwIf_pos hc]
    exact ⟨rfl, fun _ h => by cases h⟩
  · rw [throwIf_neg hc]
    simp only [ok_bind]
    refine ⟨?_, fun o' h => by cases h; exact h2⟩
    show Except.ok _ = _
    rw [SecObj.contents_of_none (by exact h2)]
    dsimp only
    split <;> rfl

theorem SecObj.strip_contents {o : SecObj} (h : o.oldSize = none) :
    o.strip.oldSize = none ∧ o.strip.contents = { o.contents with
      data := (stripKeepOne o.contents.data.reverse).reverse
      rawSize := w32 (stripKeepOne o.contents.data.reverse).reverse.length } := by
  have hu : o.unmapVirtual = o := by simp [SecObj.unmapVirtual, h]
  have e : o.strip.oldSize = none := by simp [SecObj.strip, SecObj.getRawData, hu, h]
  refine ⟨e, ?_⟩
  rw [SecObj.contents_of_none e, SecObj.contents_of_none h]
  simp [SecObj.strip, SecObj.getRawData, hu]

theorem MImage.Current.recalc {m : MImage} (hm : m.Current) (i : Nat) (s : Bool) :
    SimRes (m.recalculateSectionSizes i s) (m.plain.recalculateSectionSizes i s) := by
  unfold MImage.recalculateSectionSizes Image.recalculateSectionSizes
  rw [m.plain_get]
  have hl : m.plain.secs.length = m.objs.length := by simp [MImage.plain]
  rw [hl]
  cases hi : m.objs[i]? with
  | none => exact SimRes.error _
  | some o =>
    dsimp only [Option.map_some]
    obtain ⟨hp, hn⟩ := (hm.get hi).intact.prepare m.img.nt.fileAlign m.img.nt.secAlign
    have ef : m.plain.nt = m.img.nt := rfl
    rw [ef, ← hp]
    cases he : o.prepare m.img.nt.fileAlign m.img.nt.secAlign with
    | error e => exact SimRes.error _
    | ok o2 =>
      have h2 := hn o2 he
      show SimRes _ (Except.ok o2.contents >>= _)
      rw [ok_bind]
      dsimp only
      have key : ∀ (o3 : SecObj) (s3 : Sec), o3.oldSize = none → o3.contents = s3 →
          SimRes (if alignUp o3.hdr.vsize m.img.nt.secAlign < alignUp o3.hdr.rawSize m.img.nt.fileAlign then
              ({ m with objs := m.objs.set i o3 } : MImage).setSectionVirtualSize i
                (alignUp o3.hdr.rawSize m.img.nt.secAlign)
            else .ok { m with objs := m.objs.set i o3 })
            (if alignUp s3.vsize m.img.nt.secAlign < alignUp s3.rawSize m.img.nt.fileAlign then
              ({ m.plain with secs := m.plain.secs.set i s3 } : Image).setSectionVirtualSize i
                (alignUp s3.rawSize m.img.nt.secAlign)
            else .ok { m.plain with secs := m.plain.secs.set i s3 }) := by
        intro o3 s3 h3 hc
        subst hc
        have hcur : ({ m with objs := m.objs.set i o3 } : MImage).Current := hm.set i (.inl h3)
        have e4 : o3.contents.vsize = o3.hdr.vsize := rfl
        have e5 : o3.contents.rawSize = o3.hdr.rawSize := rfl
        rw [e4, e5, ← m.plain_set]
        split
        · refine hcur.setVSize i _ ?_
          intro o hx
          dsimp only at hx
          rw [List.getElem?_set] at hx
          split at hx
          · split at hx
            · cases hx; exact h3
            · cases hx
          · next hne => exact absurd rfl hne
        · exact SimRes.ok hcur rfl
      by_cases hc : s = true ∧ i + 1 ≠ m.objs.length
      · rw [if_pos hc, if_pos hc]
        exact key _ _ (SecObj.strip_contents h2).1 (SecObj.strip_contents h2).2
      · rw [if_neg hc, if_neg hc]
        exact key _ _ h2 rfl

theorem MImage.Current.realign {m : MImage} (hm : m.Current) (i : Nat) :
    SimRes (m.realignSection i) (m.plain.realignSection i) := by
  unfold MImage.realignSection Image.realignSection
  rw [m.plain_get]
  have hl : m.plain.secs.length = m.objs.length := by simp [MImage.plain]
  rw [hl]
  cases hi : m.objs[i]? with
  | none => exact SimRes.error _
  | some o =>
    dsimp only [Option.map_some]
    obtain ⟨h1, h2, h3⟩ := (hm.get hi).unmap
    have e1 : o.getRawData.1 = o.unmapVirtual := rfl
    have e2 : o.getRawData.2 = o.unmapVirtual.buf := rfl
    rw [e1, e2, h1, h3]
    split
    · refine SimRes.ok (hm.set i (.inl h2)) ?_
      rw [m.plain_set, SecObj.contents_of_none (by exact h2)]
      rfl
    · refine SimRes.ok (hm.set i (.inl h2)) ?_
      rw [m.plain_set, SecObj.contents_of_none (by exact h2)]
      rfl

theorem MImage.Current.pokeSim {m : MImage} (hm : m.Current) (rva : Nat) (h : Bool) (d : Bytes) :
    SimRes (m.poke rva h d) (m.plain.mutPtrFromRva rva h >>= fun l => m.plain.writeLoc l d) := by
  unfold MImage.poke Image.mutPtrFromRva
  have e0 : m.plain.hdrData = m.img.hdrData := rfl
  rw [e0]
  by_cases hc : h = true ∧ rva < m.img.hdrData.length
  · rw [if_pos hc, if_pos hc, ok_bind]
    unfold Image.writeLoc
    dsimp only
    rw [e0]
    cases writeAt m.img.hdrData rva d with
    | error e => exact SimRes.error e
    | ok b => exact SimRes.ok hm rfl
  · rw [if_neg hc, if_neg hc, m.idxFromRva_eq]
    cases m.plain.secIdxFromRva rva with
    | error e => exact SimRes.error e
    | ok i =>
      simp only [ok_bind]
      rw [m.plain_get]
      cases hi : m.objs[i]? with
      | none => exact SimRes.error _
      | some o =>
        dsimp only [Option.map_some]
        obtain ⟨h1, h2, h3⟩ := (hm.get hi).unmap
        have e1 : o.getRawData.1 = o.unmapVirtual := rfl
        have e2 : o.getRawData.2 = o.unmapVirtual.buf := rfl
        have e3 : o.contents.va = o.hdr.va := rfl
        rw [e1, e2, h1, h3, e3]
        split
        · exact SimRes.error _
        · split
          · exact SimRes.error _
          · rw [ok_bind]
            unfold Image.writeLoc
            dsimp only
            rw [m.plain_get, hi]
            dsimp only [Option.map_some]
            cases writeAt o.contents.data (rva - o.hdr.va) d with
            | error e => exact SimRes.error e
            | ok b =>
              refine SimRes.ok (hm.set i (.inl h2)) ?_
              rw [m.plain_set, SecObj.contents_of_none (by exact h2)]
              rfl

theorem MImage.Current.expandSim {m : MImage} (hm : m.Current) (i rva n : Nat) (e : ExpandType)
    (hs : e = .virt → ∀ o, m.objs[i]? = some o → o.oldSize = none) :
    SimRes ((m.expandSection i rva n e).map Prod.fst) ((m.plain.expandSection i rva n e).map Prod.fst) ∧
      (m.expandSection i rva n e).map Prod.snd = (m.plain.expandSection i rva n e).map Prod.snd := by
  unfold MImage.expandSection Image.expandSection
  rw [m.plain_get]
  have hl : m.plain.secs.length = m.objs.length := by simp [MImage.plain]
  rw [hl]
  cases hi : m.objs[i]? with
  | none => exact ⟨SimRes.error _, rfl⟩
  | some o =>
    dsimp only [Option.map_some]
    by_cases hlast : i + 1 ≠ m.objs.length
    · rw [if_pos hlast, if_pos hlast]; exact ⟨SimRes.error _, rfl⟩
    · rw [if_neg hlast, if_neg hlast]
      have hq : ∀ t, SimImg m (m.dataLenSec i rva t) (m.plain.dataLenSec o.contents rva t) := by
        intro t
        have h : SimImg m (m.dataLenSec i rva t) (m.plain.withSec i (fun s => m.plain.dataLenSec s rva t)) :=
          hm.perform (.lenIn i rva t)
        unfold Image.withSec at h
        rw [m.plain_get, hi] at h
        exact h
      cases e with
      | raw =>
        dsimp only
        obtain ⟨q1, q2, q3⟩ := hq .raw
        rw [← q1]
        rcases hd : m.dataLenSec i rva .raw with ⟨m1, r⟩
        rw [hd] at q1 q2 q3
        cases r with
        | error x => exact ⟨SimRes.error _, rfl⟩
        | ok len =>
          dsimp only at q2 q3 ⊢
          rw [ok_bind]
          by_cases hlen : len < n
          · rw [if_pos hlen, if_pos hlen]
            obtain ⟨h1, h2, h3⟩ := (hm.get hi).unmap
            have e1 : o.getRawData.1 = o.unmapVirtual := rfl
            have e2 : o.getRawData.2 = o.unmapVirtual.buf := rfl
            have e3 : o.contents.va = o.hdr.va := rfl
            rw [e1, e2, h1, h3, e3]
            have hcur : (MImage.mk m1.img (m1.objs.set i (SecObj.mk o.hdr
                (resize o.contents.data (w32 (sub32 rva o.hdr.va + n))) o.unmapVirtual.oldSize))).Current :=
              q3.set i (.inl h2)
            have hpl : (MImage.mk m1.img (m1.objs.set i (SecObj.mk o.hdr
                (resize o.contents.data (w32 (sub32 rva o.hdr.va + n))) o.unmapVirtual.oldSize))).plain =
                { m.plain with
                  secs := m.plain.secs.set i { o.contents with
                    va := o.hdr.va
                    data := resize o.contents.data (w32 (sub32 rva o.hdr.va + n)) } } := by
              rw [m1.plain_set, q2, SecObj.contents_of_none (by exact h2)]
              rfl
            have hr := hcur.recalc i false
            rw [hpl] at hr
            rcases hr.cases with ⟨x, hx, hy⟩ | ⟨m2, hx, hy, hc⟩
            · rw [hx, hy]; exact ⟨SimRes.error _, rfl⟩
            · rw [hx, hy]; exact ⟨SimRes.ok hc rfl, rfl⟩
          · rw [if_neg hlen, if_neg hlen]
            exact ⟨SimRes.ok q3 q2, rfl⟩
      | virt =>
        dsimp only
        have hn := hs rfl o hi
        have e0 : (m.dataLenSec i rva .virt).1 = m := by
          unfold MImage.dataLenSec MImage.onObj
          rw [hi]
          dsimp only
          split <;> (dsimp only [SecObj.viewLen]; rw [list_set_self hi])
        obtain ⟨q1, q2, q3⟩ := hq .virt
        rw [← q1]
        rcases hd : m.dataLenSec i rva .virt with ⟨m1, r⟩
        rw [hd] at q1 q2 q3 e0
        dsimp only at e0
        subst e0
        cases r with
        | error x => exact ⟨SimRes.error _, rfl⟩
        | ok len =>
          dsimp only at q2 q3 ⊢
          rw [ok_bind]
          by_cases hlen : len < n
          · rw [if_pos hlen, if_pos hlen]
            have e3 : o.contents.va = o.hdr.va := rfl
            rw [e3]
            have hr := q3.setVSize i (w32 (sub32 rva o.hdr.va + n)) (fun o' ho' => by
              rw [hi] at ho'; cases ho'; exact hn)
            rcases hr.cases with ⟨x, hx, hy⟩ | ⟨m2, hx, hy, hc⟩
            · rw [hx, hy]; exact ⟨SimRes.error _, rfl⟩
            · rw [hx, hy]; exact ⟨SimRes.ok hc rfl, rfl⟩
          · rw [if_neg hlen, if_neg hlen]
            exact ⟨SimRes.ok q3 rfl, rfl⟩

theorem MImage.Current.addSim {m : MImage} (hm : m.Current) (o : SecObj) (u : Bool) (ho : o.Intact) :
    SimRes (m.addSection o u) (m.plain.addSection o.contents u) := by
  unfold MImage.addSection Image.addSection
  have hl : m.plain.secs.length = m.objs.length := by simp [MImage.plain]
  have hg : m.plain.secs.getLast? = m.objs.getLast?.map SecObj.contents := by simp [MImage.plain]
  have hnt : m.plain.nt = m.img.nt := rfl
  rw [hl, hg, hnt]
  by_cases h96 : m.objs.length ≥ 96
  · rw [if_pos h96, throwIf_pos h96]; exact SimRes.error _
  · rw [if_neg h96, throwIf_neg h96]
    simp only [ok_bind]
    obtain ⟨hp, hn⟩ := ho.prepare m.img.nt.fileAlign m.img.nt.secAlign
    rw [← hp]
    cases he : o.prepare m.img.nt.fileAlign m.img.nt.secAlign with
    | error e => exact SimRes.error _
    | ok o2 =>
      have h2 := hn o2 he
      show SimRes _ (Except.ok o2.contents >>= _)
      rw [ok_bind]
      dsimp only
      cases hL : m.objs.getLast? with
      | none =>
        dsimp only [Option.map_none]
        have hnil : m.objs = [] := List.getLast?_eq_none_iff.1 hL
        refine SimRes.ok ?_ ?_
        · intro x hx
          rw [hnil] at hx
          simp only [List.nil_append, List.mem_singleton] at hx
          subst hx
          exact .inl h2
        · simp [MImage.plain, hnil, SecObj.contents, h2, Sec.alignedVS]
      | some last =>
        dsimp only [Option.map_some]
        have hlast : last.Current m.img.nt.secAlign := hm last (List.mem_of_getLast? hL)
        obtain ⟨u1, u2, u3⟩ := hlast.unmap
        have e1 : last.getRawData.1 = last.unmapVirtual := rfl
        have e2 : last.getRawData.2 = last.unmapVirtual.buf := rfl
        rw [e1, e2, u3]
        cases u with
        | false =>
          simp only [Bool.false_eq_true, if_false]
          refine SimRes.ok ?_ ?_
          · intro x hx
            rcases List.mem_append.1 hx with hx | hx
            · exact hm x hx
            · simp only [List.mem_singleton] at hx
              subst hx
              exact .inl h2
          · simp [MImage.plain, SecObj.contents, h2, Sec.alignedVS]
            rfl
        | true =>
          simp only [if_true]
          refine SimRes.ok ?_ ?_
          · intro x hx
            rcases List.mem_append.1 hx with hx | hx
            · rcases List.mem_append.1 hx with hx | hx
              · exact hm x (List.dropLast_subset _ hx)
              · simp only [List.mem_singleton] at hx
                subst hx
                exact .inl u2
            · simp only [List.mem_singleton] at hx
              subst hx
              exact .inl h2
          · have e3 : (SecObj.mk { last.hdr with rawSize := w32 (alignUp64 last.contents.data.length m.img.nt.fileAlign) }
                last.contents.data last.unmapVirtual.oldSize).contents =
                { last.contents with rawSize := w32 (alignUp64 last.contents.data.length m.img.nt.fileAlign) } := by
              rw [SecObj.contents_of_none (by exact u2)]
              rfl
            simp only [MImage.plain, List.map_append, List.map_dropLast, List.map_cons, List.map_nil, e3,
              List.length_append, List.length_dropLast, List.length_map, List.length_cons, List.length_nil]
            rfl

theorem MImage.Current.change {m : MImage} (hm : m.Current) (c : Change) (hs : c.Safe m) :
    SimRes (m.change c) (m.plain.change c) := by
  cases c with
  | header a v =>
    refine SimRes.ok ?_ rfl
    intro o ho
    have e : (m.img.setAcc a v).nt.secAlign = m.img.nt.secAlign := m.img.setAcc_secAlign a v
    dsimp only at ho ⊢
    rw [e]
    exact hm o ho
  | raw i d =>
    unfold MImage.change Image.change Image.withSec
    dsimp only
    rw [m.plain_get]
    cases hi : m.objs[i]? with
    | none => exact SimRes.error _
    | some o =>
      dsimp only [Option.map_some]
      refine SimRes.ok (hm.set i (.inl rfl)) ?_
      rw [m.plain_set]
      rfl
  | poke rva h d => exact hm.pokeSim rva h d
  | vsize i v => exact hm.setVSize i v hs
  | expand i rva n e =>
    have h := (hm.expandSim i rva n e (by rintro rfl; exact hs)).1
    unfold MImage.change Image.change
    dsimp only
    cases h1 : m.expandSection i rva n e <;> cases h2 : m.plain.expandSection i rva n e <;>
      rw [h1, h2] at h <;> exact h
  | recalc i s => exact hm.recalc i s
  | realign i => exact hm.realign i
  | add o u => exact hm.addSim o u hs

/-! ### The relocation reader as a client -/

/-- The client is a reader with the result `r p` on the plain image `p`. -/
def Client.Computes {α : Type} (c : Client (Res α)) (p : Image) (r : Res α) : Prop :=
  c.Reader ∧ c.value p = .ok (p, r)

theorem Client.Computes.done {α : Type} (p : Image) (r : Res α) : (Client.done r).Computes p r := ⟨trivial, rfl⟩

theorem Client.Computes.call {α : Type} (p : Image) (q : Ask) (f : q.Ans → Res α) :
    (Client.call q f).Computes p (f (p.answer q)) := ⟨fun _ => trivial, rfl⟩

theorem Client.bind_reader {α β : Type} {f : α → Client (Res β)} (hf : ∀ a, (f a).Reader) :
    ∀ {c : Client (Res α)}, c.Reader → (c.bind f).Reader
  | .done (.ok a), _ => hf a
  | .done (.error _), _ => trivial
  | .ask _ _, h => fun x => Client.bind_reader hf (h x)
  | .change _ _, h => h.elim

theorem Client.bind_value {α β : Type} {f : α → Client (Res β)} {p : Image} {r : Res α} {s : Res β}
    (hf : ∀ a, r = .ok a → (f a).value p = .ok (p, s)) (he : ∀ e, r = .error e → s = .error e) :
    ∀ {c : Client (Res α)}, c.Reader → c.value p = .ok (p, r) → (c.bind f).value p = .ok (p, s)
  | .done (.ok a), _, h => by cases h; exact hf a rfl
  | .done (.error e), _, h => by cases h; rw [he e rfl]; rfl
  | .ask q k, hr, h => Client.bind_value hf he (c := k (p.answer q)) (hr _) h
  | .change _ _, hr, _ => hr.elim

theorem Client.Computes.bind {α β : Type} {c : Client (Res α)} {f : α → Client (Res β)} {p : Image} {r : Res α}
    {g : α → Res β} (hc : c.Computes p r) (hf : ∀ a, (f a).Computes p (g a)) :
    (c.bind f).Computes p (r >>= g) := by
  refine ⟨Client.bind_reader (fun a => (hf a).1) hc.1, Client.bind_value ?_ ?_ hc.1 hc.2⟩
  · rintro a rfl
    exact (hf a).2
  · rintro e rfl
    rfl

theorem relocEntriesC_computes (p : Image) (l : Bool) (pos size i : Nat) :
    (relocEntriesC l pos size i).Computes p (p.relocEntries l pos size i) := by
  induction h : size - i using Nat.strongRecOn generalizing i with
  | _ n ih =>
    unfold relocEntriesC Image.relocEntries
    split
    · next hi =>
      have e : (p.readInt 2 (w32 (pos + i)) .virt true >>= fun item => (p.relocEntries l pos size (i + 2)) >>= fun rest =>
          if l ∨ (RelocEntry.ofItem item).type ≠ 0 then .ok (RelocEntry.ofItem item :: rest) else .ok rest) =
          (p.readT 2 (w32 (pos + i)) .virt true >>= fun b => (p.relocEntries l pos size (i + 2)) >>= fun rest =>
          if l ∨ (RelocEntry.ofItem (fromLE b)).type ≠ 0 then .ok (RelocEntry.ofItem (fromLE b) :: rest) else .ok rest) := by
        unfold Image.readInt
        cases p.readT 2 (w32 (pos + i)) .virt true <;> rfl
      dsimp only
      rw [e]
      refine (Client.Computes.call p (.read 2 (w32 (pos + i)) .virt true) _).bind fun b => ?_
      exact (ih _ (by omega) (i + 2) rfl).bind fun rest => .done _ _
    · exact .done _ _

theorem relocBlocksC_computes (p : Image) (l : Bool) (rs pos bRva bSize readSize : Nat) :
    (relocBlocksC l rs pos bRva bSize readSize).Computes p (p.relocBlocks l rs pos bRva bSize readSize) := by
  induction h : 4294967296 - pos using Nat.strongRecOn generalizing pos bRva bSize readSize with
  | _ n ih =>
    unfold relocBlocksC Image.relocBlocks
    by_cases hc : bSize ≠ 0 ∧ readSize < rs
    · rw [if_pos hc, if_pos hc]
      by_cases hs : isSumSafe pos bSize = false
      · rw [dif_pos hs, dif_pos hs]; exact .done _ _
      · rw [dif_neg hs, dif_neg hs]
        refine (relocEntriesC_computes p l pos bSize 8).bind fun es => ?_
        dsimp only
        split
        · exact .done _ _
        · refine (Client.Computes.call p (.read 8 (pos + bSize) .virt true) _).bind fun hdr => ?_
          have hlt : 4294967296 - (pos + bSize) < n := by
            simp only [isSumSafe, decide_eq_false_iff_not] at hs
            omega
          exact (ih _ hlt _ _ _ _ rfl).bind fun rest => .done _ _
    · rw [if_neg hc, if_neg hc]; exact .done _ _

theorem relocationsC_computes (p : Image) (l : Bool) : (relocationsC l).Computes p (p.getRelocations l) := by
  unfold relocationsC Image.getRelocations
  refine (Client.Computes.call p .bare _).bind fun has => ?_
  cases has with
  | false => exact .done _ _
  | true =>
    simp only [if_true]
    refine (Client.Computes.call p .bare _).bind fun dirRva => ?_
    refine (Client.Computes.call p (.from dirRva dirRva .virt true) _).bind fun len => ?_
    unfold throwIf
    split
    · exact .done _ _
    · rw [ok_bind]
      refine (Client.Computes.call p (.read 8 dirRva .virt true) _).bind fun hdr => ?_
      split
      · exact .done _ _
      · rw [ok_bind]
        refine (Client.Computes.call p .bare _).bind fun relocSize => ?_
        exact relocBlocksC_computes p l relocSize dirRva _ _ 0

end PE
