/-
The stepwise model of `Model/Failing` gives the same results as the other models.
-/
import Verif.Model.Failing
import Verif.Lemmas.Basic
namespace PE

/-- What an operation gives if it returns: the form of the other models. -/
def IM.result {α : Type} (m : IM α) (p : Image) : Res (Image × α) :=
  match m p with
  | (.ok a, q) => .ok (q, a)
  | (.error e, _) => .error e

theorem result_bind {α β : Type} (m : IM α) (g : α → IM β) (p : Image) :
    (m >>= g).result p = m.result p >>= fun r => (g r.2).result r.1 := by
  show (IM.andThen m g).result p = _
  unfold IM.result IM.andThen
  rcases m p with ⟨a | a, q⟩ <;> rfl

theorem result_pure {α : Type} (a : α) (p : Image) : (pure a : IM α).result p = .ok (p, a) := rfl

theorem result_lift {α : Type} (r : Res α) (p : Image) : (IM.lift r).result p = r >>= fun a => .ok (p, a) := by
  unfold IM.result IM.lift
  cases r <;> rfl

theorem result_image (p : Image) : IM.image.result p = .ok (p, p) := rfl
theorem result_modify (f : Image → Image) (p : Image) : (IM.modify f).result p = .ok (f p, ()) := rfl
theorem result_setSec (i : Nat) (s : Sec) (p : Image) :
    (IM.setSec i s).result p = .ok ({ p with secs := p.secs.set i s }, ()) := rfl

theorem result_sec {p : Image} {i : Nat} {s : Sec} (h : p.secs[i]? = some s) : (IM.sec i).result p = .ok (p, s) := by
  unfold IM.result IM.sec
  rw [h]

theorem bind_assoc' {α β γ : Type} (x : Res α) (f : α → Res β) (g : β → Res γ) :
    (x >>= f) >>= g = x >>= fun a => f a >>= g := by cases x <;> rfl

theorem getElem?_setSelf {p : Image} {i : Nat} {s : Sec} (h : p.secs[i]? = some s) (t : Sec) :
    (p.secs.set i t)[i]? = some t := by
  rw [List.getElem?_set]
  obtain ⟨hi, _⟩ := List.getElem?_eq_some_iff.1 h
  simp [hi]

theorem result_onData {p : Image} {i : Nat} {s : Sec} (h : p.secs[i]? = some s) (f : Bytes → Res Bytes) :
    (IM.onData i f).result p = f s.data >>= fun d => .ok ({ p with secs := p.secs.set i { s with data := d } }, ()) := by
  unfold IM.onData
  rw [result_bind, result_sec h, ok_bind, result_bind, result_lift, bind_assoc']
  rfl

theorem throwIf_bind {α : Type} (c : Prop) [Decidable c] (e : Err) (f : Unit → Res α) :
    (throwIf c e >>= f) = if c then throwE e else f () := by
  by_cases h : c
  · rw [throwIf_pos h, if_pos h]; rfl
  · rw [throwIf_neg h, if_neg h]; rfl

/-! ### Editing -/

theorem setFileAlignmentM_result (a : Nat) (p : Image) :
    (setFileAlignmentM a).result p = p.setFileAlignment a >>= fun q => .ok (q, ()) := by
  unfold setFileAlignmentM Image.setFileAlignment
  simp only [result_bind, result_lift, result_image, result_modify, ok_bind, throwIf_bind]
  by_cases h1 : a < 512
  · rw [if_pos h1, if_pos h1]; rfl
  · rw [if_neg h1, if_neg h1, ok_bind]
    by_cases h2 : isPowerOf2 a = false
    · rw [if_pos h2, if_pos h2]; rfl
    · rw [if_neg h2, if_neg h2, ok_bind]
      dsimp only
      by_cases h3 : a > p.nt.secAlign
      · rw [if_pos h3, if_pos h3]; rfl
      · rw [if_neg h3, if_neg h3]; rfl

theorem realignEndM_result {p : Image} {i : Nat} {s : Sec} (h : p.secs[i]? = some s) (b : Bool) (fa : Nat) :
    (realignEndM i s b fa).result p = if b then
      .ok ({ p with secs := p.secs.set i { s with data := stripNullbytes s.data, rawSize := w32 (stripNullbytes s.data).length } }, ())
      else .ok ({ p with secs := p.secs.set i { s with data := resize s.data (s.alignedRS fa), rawSize := s.alignedRS fa } }, ()) := by
  cases b
  · unfold realignEndM
    rw [if_neg (by simp), if_neg (by simp), result_bind, result_setSec, ok_bind, result_onData (getElem?_setSelf h _), ok_bind]
    simp only [List.set_set]
  · unfold realignEndM
    rw [if_pos rfl, if_pos rfl, result_bind, result_setSec, ok_bind, result_onData (getElem?_setSelf h _), ok_bind]
    simp only [List.set_set]

theorem realignSectionM_result (i : Nat) (p : Image) :
    (realignSectionM i).result p = p.realignSection i >>= fun q => .ok (q, ()) := by
  unfold realignSectionM Image.realignSection
  rw [result_bind, result_image, ok_bind, result_bind, result_lift, bind_assoc', throwIf_bind]
  by_cases hi : p.secs.length ≤ i
  · rw [if_pos hi, List.getElem?_eq_none hi]; rfl
  · have h := List.getElem?_eq_getElem (show i < p.secs.length by omega)
    rw [if_neg hi, ok_bind, result_bind, result_sec h, ok_bind, realignEndM_result h, h]
    dsimp only
    by_cases hl : i + 1 = p.secs.length
    · rw [if_pos hl, if_pos (by simpa using hl)]; rfl
    · rw [if_neg hl, if_neg (by simpa using hl)]; rfl

theorem realignFromM_result (n i : Nat) (p : Image) :
    (realignFromM i n).result p = p.realignFrom i n >>= fun q => .ok (q, ()) := by
  induction n generalizing i p with
  | zero => rfl
  | succ n ih =>
    unfold realignFromM Image.realignFrom
    rw [result_bind, realignSectionM_result, bind_assoc', bind_assoc']
    congr 1
    funext q
    rw [ok_bind, ih]

theorem realignFileM_result (a : Nat) (p : Image) :
    (realignFileM a).result p = p.realignFile a >>= fun q => .ok (q, ()) := by
  unfold realignFileM Image.realignFile
  rw [result_bind, setFileAlignmentM_result, bind_assoc', bind_assoc']
  congr 1
  funext q
  rw [ok_bind, result_bind, result_image, ok_bind, realignFromM_result]

theorem setVirtualSizeM_result (i v : Nat) (p : Image) :
    (setVirtualSizeM i v).result p = p.setSectionVirtualSize i v >>= fun q => .ok (q, ()) := by
  unfold setVirtualSizeM Image.setSectionVirtualSize newVsizeM
  rw [result_bind, result_image, ok_bind, result_bind, result_lift, bind_assoc', throwIf_bind]
  by_cases hi : i + 1 = p.secs.length
  · have h := List.getElem?_eq_getElem (show i < p.secs.length by omega)
    dsimp only
    rw [if_neg (show ¬ i + 1 ≠ p.secs.length by omega), h]
    dsimp only
    rw [if_neg (show ¬ i + 1 ≠ p.secs.length by omega), ok_bind, result_bind, result_sec h, ok_bind]
    dsimp only
    by_cases hv : v = 0
    · rw [if_pos hv, if_pos hv, result_bind, result_bind, result_lift, bind_assoc', bind_assoc', throwIf_bind]
      by_cases he : p.secs[i].empty = true
      · rw [if_pos he, if_pos he]; rfl
      · rw [if_neg he, if_neg he]; rfl
    · rw [if_neg hv, if_neg hv]; rfl
  · dsimp only; rw [if_pos (show i + 1 ≠ p.secs.length by omega)]
    cases p.secs[i]? with
    | none => rfl
    | some s => dsimp only; rw [if_pos (by omega)]; rfl

theorem prepareM_result {p : Image} {i : Nat} {s : Sec} (h : p.secs[i]? = some s) :
    (prepareM i).result p = prepareSection p.nt.fileAlign p.nt.secAlign s >>= fun t =>
      .ok ({ p with secs := p.secs.set i t }, ()) := by
  unfold prepareM prepareSection
  rw [result_bind, result_image, ok_bind, result_bind, result_sec h, ok_bind, result_bind, result_setSec, ok_bind]
  dsimp only
  rw [result_bind, result_lift, bind_assoc', throwIf_bind, bind_assoc', throwIf_bind]
  by_cases h0 : w32 (alignUp64 s.data.length p.nt.fileAlign) = 0 ∧ s.vsize = 0
  · rw [if_pos h0, if_pos h0]
  · rw [if_neg h0, if_neg h0, ok_bind]
    dsimp only
    rw [result_setSec]
    simp only [List.set_set]
    by_cases hv : s.vsize = 0
    · rw [if_pos hv, if_pos hv]; rfl
    · rw [if_neg hv, if_neg hv]; rfl

theorem stripM_result {p : Image} {i : Nat} {s : Sec} (h : p.secs[i]? = some s) (b : Bool) :
    (stripM i b).result p = .ok ({ p with secs := p.secs.set i (if b then
      { s with data := (stripKeepOne s.data.reverse).reverse, rawSize := w32 (stripKeepOne s.data.reverse).reverse.length }
      else s) }, ()) := by
  unfold stripM
  cases b
  · simp only [Bool.false_eq_true, if_false]
    rw [result_pure]
    obtain ⟨hi, he⟩ := List.getElem?_eq_some_iff.1 h
    rw [← he, List.set_getElem_self]
  · simp only [if_true]
    rw [result_bind, result_onData h, ok_bind, ok_bind, result_bind, result_sec (getElem?_setSelf h _), ok_bind,
      result_setSec]
    simp only [List.set_set]

theorem recalculateM_result {p : Image} {i : Nat} {s : Sec} (h : p.secs[i]? = some s) (b : Bool) :
    (recalculateM i b).result p = p.recalculateSectionSizes i b >>= fun q => .ok (q, ()) := by
  unfold recalculateM Image.recalculateSectionSizes
  rw [h]
  dsimp only
  rw [result_bind, prepareM_result h, bind_assoc', bind_assoc']
  congr 1
  funext t
  rw [ok_bind]
  dsimp only
  have h1 := getElem?_setSelf h t
  rw [result_bind, result_image, ok_bind]
  dsimp only
  rw [result_bind, stripM_result h1, ok_bind]
  dsimp only
  rw [result_bind]
  have hc : (b && decide (i + 1 ≠ (p.secs.set i t).length)) = true ↔ (b = true ∧ i + 1 ≠ p.secs.length) := by simp
  rw [List.set_set]
  generalize hu : (if (b && decide (i + 1 ≠ (p.secs.set i t).length)) = true then
      ({ t with data := (stripKeepOne t.data.reverse).reverse, rawSize := w32 (stripKeepOne t.data.reverse).reverse.length } : Sec)
      else t) = u
  have hu' : (if b = true ∧ i + 1 ≠ p.secs.length then
      ({ t with data := (stripKeepOne t.data.reverse).reverse, rawSize := w32 (stripKeepOne t.data.reverse).reverse.length } : Sec)
      else t) = u := by
    rw [← hu]
    by_cases hb : b = true ∧ i + 1 ≠ p.secs.length
    · rw [if_pos hb, if_pos (hc.2 hb)]
    · rw [if_neg hb, if_neg (fun x => hb (hc.1 x))]
  rw [hu', result_sec (getElem?_setSelf h u), ok_bind]
  unfold adjustM
  dsimp only
  by_cases ha : alignUp u.vsize p.nt.secAlign < alignUp u.rawSize p.nt.fileAlign
  · rw [if_pos ha, if_pos ha, setVirtualSizeM_result]
  · rw [if_neg ha, if_neg ha]; rfl

theorem expandM_result (i rva size : Nat) (e : ExpandType) (p : Image) :
    (expandM i rva size e).result p = p.expandSection i rva size e := by
  unfold expandM Image.expandSection expandToM
  rw [result_bind, result_image, ok_bind, result_bind, result_lift, bind_assoc', throwIf_bind]
  by_cases hi : i + 1 = p.secs.length
  · have h := List.getElem?_eq_getElem (show i < p.secs.length by omega)
    dsimp only
    rw [if_neg (show ¬ i + 1 ≠ p.secs.length by omega), h]
    dsimp only
    rw [if_neg (show ¬ i + 1 ≠ p.secs.length by omega), ok_bind, result_bind, result_sec h, ok_bind, result_bind, result_lift, bind_assoc']
    dsimp only
    cases e with
    | raw =>
      dsimp only [ExpandType.view]
      congr 1
      funext len
      rw [ok_bind]
      by_cases hl : len < size
      · rw [if_pos hl, if_pos hl, result_bind, result_onData h, ok_bind, ok_bind, result_bind,
          recalculateM_result (getElem?_setSelf h _), bind_assoc']
        congr 1
      · rw [if_neg hl, if_neg hl]; rfl
    | virt =>
      dsimp only [ExpandType.view]
      congr 1
      funext len
      rw [ok_bind]
      by_cases hl : len < size
      · rw [if_pos hl, if_pos hl, result_bind, setVirtualSizeM_result, bind_assoc']
        congr 1
      · rw [if_neg hl, if_neg hl]; rfl
  · dsimp only; rw [if_pos (show i + 1 ≠ p.secs.length by omega)]
    cases p.secs[i]? with
    | none => rfl
    | some s => dsimp only; rw [if_pos (by omega)]

theorem addSectionM_result (s : Sec) (u : Bool) (p : Image) :
    (addSectionM s u).result p = p.addSection s u >>= fun q => .ok (q, ()) := by
  unfold addSectionM Image.addSection
  rw [result_bind, result_image, ok_bind, result_bind, result_lift, bind_assoc', throwIf_bind, bind_assoc', throwIf_bind]
  dsimp only
  by_cases h : p.secs.length ≥ 96
  · rw [if_pos h, if_pos h]
  · rw [if_neg h, if_neg h, ok_bind, result_bind, result_lift, bind_assoc', bind_assoc']
    congr 1
    funext t
    simp only [ok_bind, result_bind, result_modify]
    unfold Image.roundLast Image.newSectionVa
    cases p.secs.getLast? with
    | none => rfl
    | some last => cases u <;> rfl

end PE
