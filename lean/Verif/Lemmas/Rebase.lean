/-
Helper lemmas about rebasing.
-/
import Verif.Spec.Reloc
import Verif.Spec.Rebase
import Verif.Lemmas.Rva
namespace PE

theorem getElem?_patch {c x : Bytes} {o i : Nat} (ho : o + x.length ≤ c.length) : (patch c o x)[i]? =
    if i < o then c[i]? else if i < o + x.length then x[i - o]? else c[i]? := by
  simp only [patch]
  have ht : (List.take o c).length = o := by simp; omega
  by_cases a : i < o
  · rw [if_pos a, List.append_assoc, List.getElem?_append_left (by omega), List.getElem?_take, if_pos a]
  · rw [if_neg a]
    by_cases b : i < o + x.length
    · rw [if_pos b, List.getElem?_append_left (by simp; omega), List.getElem?_append_right (by omega), ht]
    · rw [if_neg b, List.getElem?_append_right (by simp; omega), List.getElem?_drop]
      congr 1
      simp; omega

theorem patch_same_twice {b d e : Bytes} {off : Nat} (h : off + d.length ≤ b.length) (he : e.length = d.length) :
    patch (patch b off d) off e = patch b off e := by
  have l1 := patch_length h
  apply List.ext_getElem?
  intro i
  rw [getElem?_patch (by omega), getElem?_patch h, getElem?_patch (by omega)]
  split
  · rfl
  · split
    · rfl
    · rw [if_neg (by omega)]

theorem patch_slice_self {b : Bytes} {off n : Nat} (h : off + n ≤ b.length) : patch b off (slice b off n) = b := by
  have l1 := slice_length_of_le h
  apply List.ext_getElem?
  intro i
  rw [getElem?_patch (by omega)]
  split
  · rfl
  · split
    · unfold slice
      rw [List.getElem?_take, if_pos (by omega), List.getElem?_drop]
      congr 1; omega
    · rfl

theorem patch_comm {b d e : Bytes} {o1 o2 : Nat} (h1 : o1 + d.length ≤ b.length) (h2 : o2 + e.length ≤ b.length)
    (h : o1 + d.length ≤ o2 ∨ o2 + e.length ≤ o1) :
    patch (patch b o1 d) o2 e = patch (patch b o2 e) o1 d := by
  have l1 := patch_length h1
  have l2 := patch_length h2
  apply List.ext_getElem?
  intro i
  rw [getElem?_patch (by omega), getElem?_patch (by omega), getElem?_patch (by omega), getElem?_patch (by omega)]
  split <;> split <;> (try split) <;> (try split) <;> first | rfl | omega

/-- Bytes at a location. -/
def Image.getLoc (p : Image) (l : Loc) (n : Nat) : Bytes :=
  match l with
  | .hdr off => slice p.hdrData off n
  | .sec i off => slice ((p.secs[i]?.getD {}).data) off n

def Image.putLoc (p : Image) (l : Loc) (d : Bytes) : Image :=
  match l with
  | .hdr off => { p with hdrData := patch p.hdrData off d }
  | .sec i off =>
    { p with secs := p.secs.modify i (fun s => { s with data := patch s.data off d }) }

/-- The location holds `n` bytes. -/
def Image.LocOk (p : Image) (l : Loc) (n : Nat) : Prop :=
  match l with
  | .hdr off => off + n ≤ p.hdrData.length
  | .sec i off => ∃ s, p.secs[i]? = some s ∧ off + n ≤ s.data.length

def Loc.Disjoint (n : Nat) : Loc → Loc → Prop
  | .hdr a, .hdr b => a + n ≤ b ∨ b + n ≤ a
  | .sec i a, .sec j b => i = j → a + n ≤ b ∨ b + n ≤ a
  | _, _ => True

theorem writeLoc_ok {p : Image} {l : Loc} {d : Bytes} (h : p.LocOk l d.length) :
    p.writeLoc l d = .ok (p.putLoc l d) := by
  cases l with
  | hdr off => unfold Image.writeLoc Image.putLoc; simp only; rw [writeAt_ok h]; rfl
  | sec i off =>
    obtain ⟨s, hs, hb⟩ := h
    unfold Image.writeLoc Image.putLoc
    simp only [hs]
    rw [writeAt_ok hb, ok_bind]
    congr 2
    apply List.ext_getElem?
    intro k
    have hi : i < p.secs.length := (List.getElem?_eq_some_iff.mp hs).1
    rw [List.getElem?_set, List.getElem?_modify]
    by_cases hk : i = k
    · subst hk
      rw [if_pos rfl, if_pos hi, hs]; simp
    · simp [hk]

/-- What the address computations depend on: everything but the bytes themselves. -/
structure SameShape (p q : Image) : Prop where
  kind : q.kind = p.kind
  nt : q.nt = p.nt
  hdr : q.hdrData.length = p.hdrData.length
  secs : q.secs.map (fun s => (({ s with data := [] } : Sec), s.data.length)) =
    p.secs.map (fun s => (({ s with data := [] } : Sec), s.data.length))

theorem SameShape.refl (p : Image) : SameShape p p := ⟨rfl, rfl, rfl, rfl⟩
theorem SameShape.trans {p q r : Image} (h : SameShape p q) (g : SameShape q r) : SameShape p r :=
  ⟨g.kind.trans h.kind, g.nt.trans h.nt, g.hdr.trans h.hdr, g.secs.trans h.secs⟩

theorem SameShape.sec {p q : Image} (h : SameShape p q) (i : Nat) :
    (q.secs[i]?.map (fun s => (({ s with data := [] } : Sec), s.data.length))) =
      (p.secs[i]?.map (fun s => (({ s with data := [] } : Sec), s.data.length))) := by
  have := congrArg (fun l => l[i]?) h.secs
  simpa using this

theorem putLoc_shape {p : Image} {l : Loc} {d : Bytes} (h : p.LocOk l d.length) : SameShape p (p.putLoc l d) := by
  cases l with
  | hdr off =>
    exact ⟨rfl, rfl, patch_length h, rfl⟩
  | sec i off =>
    obtain ⟨s, hs, hb⟩ := h
    refine ⟨rfl, rfl, rfl, ?_⟩
    show List.map _ (p.secs.modify i _) = _
    apply List.ext_getElem?
    intro j
    rw [List.getElem?_map, List.getElem?_modify, List.getElem?_map]
    by_cases hij : i = j
    · subst hij
      rw [hs]; simp [patch_length hb]
    · simp [hij]

/-- Where `rebase_image` finds the word at `rva` (for reading and writing). -/
def Image.target (p : Image) (rva : Nat) : Option Loc :=
  if isSumSafe rva p.kind.ptr = true ∧ rva + p.kind.ptr < p.hdrData.length then some (.hdr rva)
  else match p.secs.findIdx? (fun s => s.containsRva p.nt.secAlign rva) with
    | none => none
    | some i => match p.secs[i]? with
      | none => none
      | some s => if rva - s.va + p.kind.ptr ≤ s.data.length then some (.sec i (rva - s.va)) else none

theorem findIdx?_find? {α : Type} (l : List α) (f : α → Bool) :
    l.find? f = (l.findIdx? f).bind (fun i => l[i]?) := by
  induction l with
  | nil => rfl
  | cons a l ih =>
    rw [List.find?_cons, List.findIdx?_cons]
    cases h : f a
    · simp only [Bool.false_eq_true, if_false, ih]
      cases l.findIdx? f <;> simp
    · simp

theorem Kind.ptr_pos (k : Kind) : 0 < k.ptr := by cases k <;> decide

theorem target_ok {p : Image} {rva : Nat} {l : Loc} (h : p.target rva = some l) : p.LocOk l p.kind.ptr := by
  unfold Image.target at h
  split at h
  · next hc => injection h with h; subst h; show rva + _ ≤ _; omega
  · split at h
    · cases h
    · next i hi =>
      split at h
      · cases h
      · next s hs =>
        split at h
        · next hb => injection h with h; subst h; exact ⟨s, hs, hb⟩
        · cases h

def Image.bump (p : Image) (l : Loc) (delta : Nat) : Image :=
  p.putLoc l (leBytes p.kind.ptr (p.kind.wrap (fromLE (p.getLoc l p.kind.ptr) + delta)))

/-- `rebaseOne` succeeds exactly if the target exists, and then adds to the word there. -/
theorem rebaseOne_iff {p p' : Image} (hb : HeadersBelow p) {delta rva : Nat} (hr : rva < 2 ^ 32) :
    p.rebaseOne delta rva = .ok p' ↔ ∃ l, p.target rva = some l ∧ p' = p.bump l delta := by
  unfold Image.rebaseOne
  by_cases hh : isSumSafe rva p.kind.ptr = true ∧ rva + p.kind.ptr < p.hdrData.length
  · have ht : p.target rva = some (.hdr rva) := by unfold Image.target; rw [if_pos hh]
    have hread : p.readT p.kind.ptr rva .raw true = .ok (slice p.hdrData rva p.kind.ptr) := by
      unfold Image.readT; rw [if_pos ⟨rfl, hh⟩, readN_ok (by omega)]
    have hptr : p.mutPtrFromRva rva true = .ok (.hdr rva) := by
      unfold Image.mutPtrFromRva; rw [if_pos ⟨rfl, by omega⟩]
    rw [hread, ok_bind, hptr, ok_bind, writeLoc_ok (by rw [leBytes_length]; exact target_ok ht), ht]
    simp only [Except.ok.injEq, Option.some.injEq, exists_eq_left']
    exact ⟨fun h => h.symm, fun h => h.symm⟩
  · -- section case
    have hread : p.readT p.kind.ptr rva .raw true = (do
        let s ← p.sectionFromRva rva
        if s.data.length < sub32 rva s.va + p.kind.ptr then throwE .rvaNotExists
        else readN s.data (sub32 rva s.va) p.kind.ptr) := by
      unfold Image.readT
      rw [if_neg (by rintro ⟨_, h⟩; exact hh h)]; rfl
    rw [hread]
    have hsf : p.sectionFromRva rva = match p.secs.findIdx? (fun s => s.containsRva p.nt.secAlign rva) with
        | none => throwE .noSectionFound
        | some i => match p.secs[i]? with
          | none => throwE .noSectionFound
          | some s => .ok s := by
      unfold Image.sectionFromRva
      rw [findIdx?_find?]
      cases p.secs.findIdx? (fun s => s.containsRva p.nt.secAlign rva) with
      | none => rfl
      | some i => simp only [Option.bind_some]; cases p.secs[i]? <;> rfl
    rw [hsf]
    cases hi : p.secs.findIdx? (fun s => s.containsRva p.nt.secAlign rva) with
    | none =>
      have ht : p.target rva = none := by unfold Image.target; rw [if_neg hh, hi]
      simp [ht]
    | some i =>
      cases hs : p.secs[i]? with
      | none =>
        have ht : p.target rva = none := by unfold Image.target; rw [if_neg hh, hi]; simp [hs]
        simp [ht, hs]
      | some s =>
        have hcont : s.containsRva p.nt.secAlign rva = true := by
          obtain ⟨h1, h2, _⟩ := List.findIdx?_eq_some_iff_getElem.mp hi
          rw [List.getElem?_eq_some_iff] at hs
          obtain ⟨_, hs⟩ := hs
          rw [← hs]; exact h2
        have hle := (Sec.containsRva_le hcont).1
        have hsm : s ∈ p.secs := List.mem_of_getElem? hs
        have hhd := hb s hsm
        simp only [hs, ok_bind]
        rw [sub32_of_le hle (by omega)]
        by_cases hfit : rva - s.va + p.kind.ptr ≤ s.data.length
        · have ht : p.target rva = some (.sec i (rva - s.va)) := by
            unfold Image.target; rw [if_neg hh, hi]; simp [hs, hfit]
          have hpp := p.kind.ptr_pos
          have hptr : p.mutPtrFromRva rva true = .ok (.sec i (rva - s.va)) := by
            unfold Image.mutPtrFromRva Image.secIdxFromRva
            rw [if_neg (by rintro ⟨_, h⟩; omega), hi, ok_bind]
            simp only [hs]
            rw [if_neg (by intro h; rw [h] at hfit; simp at hfit; omega), if_neg (by omega)]
          rw [if_neg (by omega), readN_ok hfit, ok_bind, hptr, ok_bind,
            writeLoc_ok (by rw [leBytes_length]; exact target_ok ht), ht]
          have hg : p.getLoc (.sec i (rva - s.va)) p.kind.ptr = slice s.data (rva - s.va) p.kind.ptr := by
            unfold Image.getLoc; simp [hs]
          simp only [Except.ok.injEq, Option.some.injEq, exists_eq_left', Image.bump, hg]
          exact ⟨fun h => h.symm, fun h => h.symm⟩
        · have ht : p.target rva = none := by
            unfold Image.target; rw [if_neg hh, hi]; simp [hs, hfit]
          rw [if_pos (by omega)]
          simp [ht]

theorem findIdx?_shape {p q : Image} (h : SameShape p q) (f : Sec → Bool)
    (hf : ∀ s : Sec, f s = f { s with data := [] }) : q.secs.findIdx? f = p.secs.findIdx? f := by
  have key : ∀ l : List Sec, l.findIdx? f =
      (l.map (fun s => (({ s with data := [] } : Sec), s.data.length))).findIdx? (fun x => f x.1) := by
    intro l
    induction l with
    | nil => rfl
    | cons a l ih => simp only [List.map_cons, List.findIdx?_cons, ← hf a, ih]
  rw [key, key, h.secs]

theorem target_shape {p q : Image} (h : SameShape p q) (rva : Nat) : q.target rva = p.target rva := by
  unfold Image.target
  rw [h.kind, h.nt, h.hdr, findIdx?_shape h _ (fun s => rfl)]
  split
  · rfl
  · cases p.secs.findIdx? (fun s => s.containsRva p.nt.secAlign rva) with
    | none => rfl
    | some i =>
      have := h.sec i
      cases hq : q.secs[i]? <;> cases hp : p.secs[i]? <;> simp [hq, hp] at this ⊢
      obtain ⟨h1, h2⟩ := this
      rw [h2, h1.2.2.1]

theorem target_disjoint {p : Image} {r1 r2 : Nat} {l1 l2 : Loc} (h1 : p.target r1 = some l1)
    (h2 : p.target r2 = some l2) (hd : r1 + p.kind.ptr ≤ r2 ∨ r2 + p.kind.ptr ≤ r1) :
    Loc.Disjoint p.kind.ptr l1 l2 := by
  have key : ∀ r l, p.target r = some l → l = .hdr r ∨ ∃ i s, p.secs[i]? = some s ∧ s.va ≤ r ∧ l = .sec i (r - s.va) := by
    intro r l h
    unfold Image.target at h
    split at h
    · injection h with h; exact .inl h.symm
    · split at h
      · cases h
      · next i hi =>
        split at h
        · cases h
        · next s hs =>
          split at h
          · injection h with h
            refine .inr ⟨i, s, hs, ?_, h.symm⟩
            obtain ⟨a, b, _⟩ := List.findIdx?_eq_some_iff_getElem.mp hi
            rw [List.getElem?_eq_some_iff] at hs
            obtain ⟨_, hs⟩ := hs
            rw [hs] at b
            exact (Sec.containsRva_le b).1
          · cases h
  rcases key _ _ h1 with rfl | ⟨i, s, hs, hle, rfl⟩ <;> rcases key _ _ h2 with rfl | ⟨j, t, ht, hle2, rfl⟩
  · exact hd
  · trivial
  · trivial
  · intro hij
    subst hij
    rw [hs] at ht
    injection ht with ht
    subst ht
    omega

theorem getLoc_put_disjoint {p : Image} {l m : Loc} {d : Bytes} (hl : p.LocOk l d.length)
    (hm : p.LocOk m d.length) (hd : Loc.Disjoint d.length l m) :
    (p.putLoc l d).getLoc m d.length = p.getLoc m d.length := by
  cases l <;> cases m
  · exact slice_patch_disjoint hl (by unfold Loc.Disjoint at hd; omega)
  · rfl
  · rfl
  · next i a j b =>
    obtain ⟨s, hs, hb⟩ := hl
    obtain ⟨t, ht, hb2⟩ := hm
    simp only [Image.putLoc, Image.getLoc, List.getElem?_modify, ht]
    by_cases hij : i = j
    · subst hij
      rw [hs] at ht; injection ht with ht; subst ht
      have := hd rfl
      simp only [if_true, Option.map_eq_map, Option.map_some, Option.getD_some]
      exact slice_patch_disjoint hb (by omega)
    · simp [hij]

theorem getLoc_put_same {p : Image} {l : Loc} {d : Bytes} (hl : p.LocOk l d.length) :
    (p.putLoc l d).getLoc l d.length = d := by
  cases l
  · exact slice_patch_same hl
  · obtain ⟨s, hs, hb⟩ := hl
    simp only [Image.putLoc, Image.getLoc, List.getElem?_modify, hs]
    simp only [if_true, Option.map_eq_map, Option.map_some, Option.getD_some]
    exact slice_patch_same hb

theorem modify_modify_comm {l : List Sec} {i j : Nat} {f g : Sec → Sec} (h : i = j → ∀ s, l[i]? = some s → f (g s) = g (f s)) :
    (l.modify i f).modify j g = (l.modify j g).modify i f := by
  apply List.ext_getElem?
  intro k
  simp only [List.getElem?_modify]
  by_cases h1 : i = k <;> by_cases h2 : j = k
  · subst h1
    cases hl : l[i]? with
    | none => simp
    | some s => simp [h2, h h2.symm s hl]
  · simp [h1, h2]
  · simp [h1, h2]
  · simp [h1, h2]

theorem put_put_comm {p : Image} {l m : Loc} {d e : Bytes} (he : e.length = d.length) (hl : p.LocOk l d.length)
    (hm : p.LocOk m d.length) (hd : Loc.Disjoint d.length l m) :
    (p.putLoc l d).putLoc m e = (p.putLoc m e).putLoc l d := by
  cases l <;> cases m
  · simp only [Image.putLoc]
    congr 1
    unfold Image.LocOk at hl hm; unfold Loc.Disjoint at hd
    exact patch_comm hl (by omega) (by omega)
  · rfl
  · rfl
  · next i a j b =>
    obtain ⟨s, hs, hb⟩ := hl
    obtain ⟨t, ht, hb2⟩ := hm
    simp only [Image.putLoc]
    congr 1
    apply modify_modify_comm
    intro hij u hu
    subst hij
    rw [hs] at ht hu
    injection ht with ht; injection hu with hu
    subst ht; subst hu
    have := hd rfl
    simp only
    congr 1
    exact patch_comm (by omega) (by omega) (by omega)

theorem put_put_same {p : Image} {l : Loc} {d : Bytes} (hl : p.LocOk l d.length) :
    (p.putLoc l d).putLoc l (p.getLoc l d.length) = p := by
  cases l with
  | hdr off =>
    unfold Image.LocOk at hl
    simp only [Image.putLoc, Image.getLoc]
    rw [patch_same_twice hl (by rw [slice_length_of_le hl]), patch_slice_self hl]
  | sec i off =>
    obtain ⟨s, hs, hb⟩ := hl
    simp only [Image.putLoc, Image.getLoc, hs, Option.getD_some]
    have : (p.secs.modify i fun s => { s with data := patch s.data off d }).modify i
        (fun x => { x with data := patch x.data off (slice s.data off d.length) }) = p.secs := by
      apply List.ext_getElem?
      intro k
      simp only [List.getElem?_modify]
      by_cases h1 : i = k
      · subst h1
        simp only [hs, if_true, Option.map_eq_map, Option.map_some]
        rw [patch_same_twice hb (by rw [slice_length_of_le hb]), patch_slice_self hb]
      · simp [h1]
    rw [this]

end PE
namespace PE

theorem LocOk.shape {p q : Image} (h : SameShape p q) {l : Loc} {n : Nat} (hl : p.LocOk l n) : q.LocOk l n := by
  cases l with
  | hdr off => unfold Image.LocOk at *; simp only at *; rw [h.hdr]; exact hl
  | sec i off =>
    obtain ⟨s, hs, hb⟩ := hl
    have := h.sec i
    rw [hs] at this
    cases hq : q.secs[i]? with
    | none => rw [hq] at this; simp at this
    | some t =>
      rw [hq] at this
      simp only [Option.map_some, Option.some.injEq, Prod.mk.injEq] at this
      exact ⟨t, hq, by omega⟩

theorem HeadersBelow.shape {p q : Image} (h : SameShape p q) (hb : HeadersBelow p) : HeadersBelow q := by
  intro s hs
  obtain ⟨i, hi⟩ := List.mem_iff_getElem?.mp hs
  have := h.sec i
  rw [hi] at this
  cases hp : p.secs[i]? with
  | none => rw [hp] at this; simp at this
  | some t =>
    rw [hp] at this
    simp only [Option.map_some, Option.some.injEq, Prod.mk.injEq, Sec.mk.injEq] at this
    rw [h.hdr, this.1.2.2.1]
    exact hb t (List.mem_of_getElem? hp)

theorem bump_shape {p : Image} {l : Loc} {d : Nat} (h : p.LocOk l p.kind.ptr) : SameShape p (p.bump l d) :=
  putLoc_shape (by rw [leBytes_length]; exact h)

theorem getLoc_length {p : Image} {l : Loc} {n : Nat} (h : p.LocOk l n) : (p.getLoc l n).length = n := by
  cases l with
  | hdr off => exact slice_length_of_le h
  | sec i off =>
    obtain ⟨s, hs, hb⟩ := h
    simp only [Image.getLoc, hs, Option.getD_some]
    exact slice_length_of_le hb

theorem Kind.wrap_eq (k : Kind) (x : Nat) : k.wrap x = x % 256 ^ k.ptr := by
  cases k <;> rfl

theorem bump_kind (p : Image) (l : Loc) (d : Nat) : (p.bump l d).kind = p.kind := by
  unfold Image.bump Image.putLoc; cases l <;> rfl

theorem getLoc_bump_same {p : Image} {l : Loc} {d : Nat} (h : p.LocOk l p.kind.ptr) :
    (p.bump l d).getLoc l p.kind.ptr = leBytes p.kind.ptr (p.kind.wrap (fromLE (p.getLoc l p.kind.ptr) + d)) := by
  have := getLoc_put_same (p := p) (l := l)
    (d := leBytes p.kind.ptr (p.kind.wrap (fromLE (p.getLoc l p.kind.ptr) + d))) (by rw [leBytes_length]; exact h)
  rw [leBytes_length] at this
  exact this

theorem getLoc_bump_disjoint {p : Image} {l m : Loc} {d : Nat} (h : p.LocOk l p.kind.ptr) (hm : p.LocOk m p.kind.ptr)
    (hd : Loc.Disjoint p.kind.ptr l m) : (p.bump l d).getLoc m p.kind.ptr = p.getLoc m p.kind.ptr := by
  have := getLoc_put_disjoint (p := p) (l := l) (m := m)
    (d := leBytes p.kind.ptr (p.kind.wrap (fromLE (p.getLoc l p.kind.ptr) + d))) (by rw [leBytes_length]; exact h)
    (by rw [leBytes_length]; exact hm) (by rw [leBytes_length]; exact hd)
  rw [leBytes_length] at this
  exact this

theorem Loc.Disjoint.symm {n : Nat} {l m : Loc} (h : Loc.Disjoint n l m) : Loc.Disjoint n m l := by
  cases l <;> cases m <;> unfold Loc.Disjoint at *
  · omega
  · trivial
  · trivial
  · intro hij; have := h hij.symm; omega

theorem bump_comm {p : Image} {l m : Loc} {a b : Nat} (hl : p.LocOk l p.kind.ptr) (hm : p.LocOk m p.kind.ptr)
    (hd : Loc.Disjoint p.kind.ptr l m) : (p.bump l a).bump m b = (p.bump m b).bump l a := by
  have h1 := getLoc_bump_disjoint (d := a) hl hm hd
  have h2 := getLoc_bump_disjoint (d := b) hm hl hd.symm
  have e1 : (p.bump l a).bump m b =
      (p.bump l a).putLoc m (leBytes p.kind.ptr (p.kind.wrap (fromLE (p.getLoc m p.kind.ptr) + b))) := by
    rw [← h1]
    show (p.bump l a).putLoc m _ = _
    rw [bump_kind]
  have e2 : (p.bump m b).bump l a =
      (p.bump m b).putLoc l (leBytes p.kind.ptr (p.kind.wrap (fromLE (p.getLoc l p.kind.ptr) + a))) := by
    rw [← h2]
    show (p.bump m b).putLoc l _ = _
    rw [bump_kind]
  rw [e1, e2]
  exact put_put_comm (by simp) (by rw [leBytes_length]; exact hl) (by rw [leBytes_length]; exact hm)
    (by rw [leBytes_length]; exact hd)

theorem bump_inverse {p : Image} {l : Loc} {a b : Nat} (hl : p.LocOk l p.kind.ptr)
    (hab : (a + b) % 256 ^ p.kind.ptr = 0) : (p.bump l a).bump l b = p := by
  have h1 := getLoc_bump_same (d := a) hl
  have hlen := getLoc_length hl
  have e : (p.bump l a).bump l b = (p.bump l a).putLoc l (p.getLoc l p.kind.ptr) := by
    show (p.bump l a).putLoc l _ = _
    rw [bump_kind, h1]
    congr 1
    rw [fromLE_leBytes, Kind.wrap_eq, Kind.wrap_eq]
    have hv := fromLE_lt (p.getLoc l p.kind.ptr)
    rw [hlen] at hv
    generalize hv0 : fromLE (p.getLoc l p.kind.ptr) = v at *
    have : ((v + a) % 256 ^ p.kind.ptr % 256 ^ p.kind.ptr + b) % 256 ^ p.kind.ptr = v := by
      rw [Nat.mod_mod, Nat.mod_add_mod, Nat.add_assoc, ← Nat.add_mod_mod, hab, Nat.add_zero, Nat.mod_eq_of_lt hv]
    rw [this, ← hv0, leBytes_fromLE' hlen]
  rw [e]
  have := put_put_same (p := p) (l := l)
    (d := leBytes p.kind.ptr (p.kind.wrap (fromLE (p.getLoc l p.kind.ptr) + a))) (by rw [leBytes_length]; exact hl)
  rw [leBytes_length] at this
  exact this

/-- The sequence of corrections made by `rebase_image`. -/
def Image.rebaseList (p : Image) (delta : Nat) : List Nat → Res Image
  | [] => .ok p
  | r :: rs => do
    let p ← p.rebaseOne delta r
    p.rebaseList delta rs

theorem rebaseList_append (p : Image) (delta : Nat) (a b : List Nat) :
    p.rebaseList delta (a ++ b) = (do let q ← p.rebaseList delta a; q.rebaseList delta b) := by
  induction a generalizing p with
  | nil => rfl
  | cons r a ih =>
    simp only [List.cons_append, Image.rebaseList]
    cases p.rebaseOne delta r with
    | error e => rfl
    | ok q => simp only [ok_bind, ih]

theorem rebaseEntries_list (p : Image) (delta base : Nat) (es : List RelocEntry) :
    p.rebaseEntries delta base es = p.rebaseList delta
      ((es.filter (fun e => decide (e.type ≠ 0))).map (fun e => w32 (base + e.rva))) := by
  induction es generalizing p with
  | nil => rfl
  | cons e es ih =>
    unfold Image.rebaseEntries
    by_cases h : e.type = 0
    · rw [if_pos h, List.filter_cons_of_neg (by simpa using h), ih]
    · rw [if_neg h, List.filter_cons_of_pos (by simpa using h)]
      simp only [List.map_cons, Image.rebaseList]
      cases p.rebaseOne delta (w32 (base + e.rva)) with
      | error e => rfl
      | ok q => simp only [ok_bind, ih]

theorem rebaseTables_list (p : Image) (delta : Nat) (ts : List RelocTable) :
    p.rebaseTables delta ts = p.rebaseList delta (relocTargets ts) := by
  induction ts generalizing p with
  | nil => rfl
  | cons t ts ih =>
    unfold Image.rebaseTables relocTargets
    rw [List.flatMap_cons, rebaseList_append, rebaseEntries_list]
    cases p.rebaseList delta _ with
    | error e => rfl
    | ok q => simp only [ok_bind, ih]; rfl

theorem rebaseList_iff {p p' : Image} (hb : HeadersBelow p) {delta : Nat} {rs : List Nat} (hr : ∀ r ∈ rs, r < 2 ^ 32) :
    p.rebaseList delta rs = .ok p' ↔
      ∃ ls : List Loc, rs.map p.target = ls.map some ∧ p' = ls.foldl (fun q l => q.bump l delta) p := by
  induction rs generalizing p with
  | nil =>
    unfold Image.rebaseList
    constructor
    · intro h; injection h with h; exact ⟨[], rfl, h.symm⟩
    · rintro ⟨ls, h1, h2⟩
      cases ls with
      | nil => rw [h2]; rfl
      | cons => simp at h1
  | cons r rs ih =>
    unfold Image.rebaseList
    rw [bind_ok_iff]
    constructor
    · rintro ⟨q, hq, h⟩
      obtain ⟨l, hl, rfl⟩ := (rebaseOne_iff hb (hr r (by simp))).mp hq
      have hs := bump_shape (d := delta) (target_ok hl)
      obtain ⟨ls, h1, h2⟩ := (ih (hb.shape hs) (fun x hx => hr x (by simp [hx]))).mp h
      refine ⟨l :: ls, ?_, h2⟩
      simp only [List.map_cons, hl, ← h1]
      congr 1
      exact List.map_congr_left (fun x _ => (target_shape hs x).symm)
    · rintro ⟨ls, h1, h2⟩
      cases ls with
      | nil => simp at h1
      | cons l ls =>
        simp only [List.map_cons, List.cons.injEq] at h1
        have hs := bump_shape (d := delta) (target_ok h1.1)
        refine ⟨p.bump l delta, (rebaseOne_iff hb (hr r (by simp))).mpr ⟨l, h1.1, rfl⟩, ?_⟩
        refine (ih (hb.shape hs) (fun x hx => hr x (by simp [hx]))).mpr ⟨ls, ?_, h2⟩
        rw [← h1.2]
        exact List.map_congr_left (fun x _ => target_shape hs x)

theorem foldl_bump_shape {p : Image} {ls : List Loc} {d : Nat} (h : ∀ l ∈ ls, p.LocOk l p.kind.ptr) :
    SameShape p (ls.foldl (fun q l => q.bump l d) p) := by
  induction ls generalizing p with
  | nil => exact SameShape.refl p
  | cons l ls ih =>
    have hs := bump_shape (d := d) (h l (by simp))
    refine hs.trans (ih ?_)
    intro m hm
    rw [hs.kind]
    exact LocOk.shape hs (h m (by simp [hm]))

theorem foldl_bump_comm {p : Image} {ls : List Loc} {l : Loc} {a b : Nat} (h : ∀ m ∈ ls, p.LocOk m p.kind.ptr)
    (hl : p.LocOk l p.kind.ptr) (hd : ∀ m ∈ ls, Loc.Disjoint p.kind.ptr l m) :
    (ls.foldl (fun q m => q.bump m a) p).bump l b = ls.foldl (fun q m => q.bump m a) (p.bump l b) := by
  induction ls generalizing p with
  | nil => rfl
  | cons m ls ih =>
    have hs := bump_shape (d := a) (h m (by simp))
    simp only [List.foldl_cons]
    rw [ih, bump_comm (h m (by simp)) hl (hd m (by simp)).symm]
    · intro x hx; rw [hs.kind]; exact LocOk.shape hs (h x (by simp [hx]))
    · rw [hs.kind]; exact LocOk.shape hs hl
    · intro x hx; rw [hs.kind]; exact hd x (by simp [hx])

theorem foldl_bump_inverse {p : Image} {ls : List Loc} {a b : Nat} (h : ∀ m ∈ ls, p.LocOk m p.kind.ptr)
    (hd : ls.Pairwise (Loc.Disjoint p.kind.ptr)) (hab : (a + b) % 256 ^ p.kind.ptr = 0) :
    ls.foldl (fun q m => q.bump m b) (ls.foldl (fun q m => q.bump m a) p) = p := by
  induction ls generalizing p with
  | nil => rfl
  | cons l ls ih =>
    have hl := h l (by simp)
    have hs := bump_shape (d := a) hl
    rw [List.pairwise_cons] at hd
    simp only [List.foldl_cons]
    have h' : ∀ m ∈ ls, (p.bump l a).LocOk m (p.bump l a).kind.ptr := by
      intro x hx; rw [hs.kind]; exact LocOk.shape hs (h x (by simp [hx]))
    rw [foldl_bump_comm h' (by rw [hs.kind]; exact LocOk.shape hs hl) (by rw [hs.kind]; exact hd.1),
      bump_inverse hl hab]
    exact ih (fun x hx => h x (by simp [hx])) hd.2 hab

theorem getLoc_foldl_disjoint {p : Image} {ls : List Loc} {m : Loc} {a : Nat} (h : ∀ l ∈ ls, p.LocOk l p.kind.ptr)
    (hm : p.LocOk m p.kind.ptr) (hd : ∀ l ∈ ls, Loc.Disjoint p.kind.ptr l m) :
    (ls.foldl (fun q l => q.bump l a) p).getLoc m p.kind.ptr = p.getLoc m p.kind.ptr := by
  induction ls generalizing p with
  | nil => rfl
  | cons l ls ih =>
    have hl := h l (by simp)
    have hs := bump_shape (d := a) hl
    simp only [List.foldl_cons]
    have := ih (p := p.bump l a) (fun x hx => by rw [hs.kind]; exact LocOk.shape hs (h x (by simp [hx])))
      (by rw [hs.kind]; exact LocOk.shape hs hm) (fun x hx => by rw [hs.kind]; exact hd x (by simp [hx]))
    rw [hs.kind] at this
    rw [this, getLoc_bump_disjoint hl hm (hd l (by simp))]

theorem getLoc_foldl_same {p : Image} {ls : List Loc} {m : Loc} {a : Nat} (h : ∀ l ∈ ls, p.LocOk l p.kind.ptr)
    (hd : ls.Pairwise (Loc.Disjoint p.kind.ptr)) (hm : m ∈ ls) :
    (ls.foldl (fun q l => q.bump l a) p).getLoc m p.kind.ptr =
      leBytes p.kind.ptr (p.kind.wrap (fromLE (p.getLoc m p.kind.ptr) + a)) := by
  induction ls generalizing p with
  | nil => simp at hm
  | cons l ls ih =>
    have hl := h l (by simp)
    have hs := bump_shape (d := a) hl
    rw [List.pairwise_cons] at hd
    simp only [List.foldl_cons]
    have h' : ∀ x ∈ ls, (p.bump l a).LocOk x (p.bump l a).kind.ptr := by
      intro x hx; rw [hs.kind]; exact LocOk.shape hs (h x (by simp [hx]))
    rcases List.mem_cons.mp hm with rfl | hm
    · have := getLoc_foldl_disjoint (a := a) (m := m) h' (by rw [hs.kind]; exact LocOk.shape hs hl)
        (fun x hx => by rw [hs.kind]; exact (hd.1 x hx).symm)
      rw [hs.kind] at this
      rw [this, getLoc_bump_same hl]
    · have := ih h' (by rw [hs.kind]; exact hd.2) hm
      rw [hs.kind] at this
      rw [this, getLoc_bump_disjoint hl (h m (by simp [hm])) (hd.1 m hm)]

/-- The byte at `m` belongs to the `n` bytes at `l`. -/
def Loc.Inside (n : Nat) : Loc → Loc → Prop
  | .hdr a, .hdr b => b ≤ a ∧ a < b + n
  | .sec i a, .sec j b => i = j ∧ b ≤ a ∧ a < b + n
  | _, _ => False

theorem byteAt_put {p : Image} {l m : Loc} {d : Bytes} (hl : p.LocOk l d.length) (hm : ¬ Loc.Inside d.length m l) :
    (p.putLoc l d).byteAt m = p.byteAt m := by
  cases l <;> cases m
  · next a b =>
    unfold Loc.Inside at hm; unfold Image.LocOk at hl
    simp only [Image.putLoc, Image.byteAt]
    rw [getElem?_patch hl]
    split
    · rfl
    · rw [if_neg (by omega)]
  · rfl
  · rfl
  · next i a j b =>
    obtain ⟨s, hs, hb⟩ := hl
    unfold Loc.Inside at hm
    simp only [Image.putLoc, Image.byteAt, List.getElem?_modify]
    by_cases hij : i = j
    · subst hij
      simp only [hs, if_true, Option.map_eq_map, Option.map_some, Option.bind_some]
      rw [getElem?_patch hb]
      split
      · rfl
      · rw [if_neg (by omega)]
    · simp [hij]

theorem byteAt_foldl {p : Image} {ls : List Loc} {m : Loc} {a : Nat} (h : ∀ l ∈ ls, p.LocOk l p.kind.ptr)
    (hm : ∀ l ∈ ls, ¬ Loc.Inside p.kind.ptr m l) : (ls.foldl (fun q l => q.bump l a) p).byteAt m = p.byteAt m := by
  induction ls generalizing p with
  | nil => rfl
  | cons l ls ih =>
    have hl := h l (by simp)
    have hs := bump_shape (d := a) hl
    simp only [List.foldl_cons]
    rw [ih (fun x hx => by rw [hs.kind]; exact LocOk.shape hs (h x (by simp [hx])))
      (fun x hx => by rw [hs.kind]; exact hm x (by simp [hx]))]
    exact byteAt_put (by rw [leBytes_length]; exact hl) (by rw [leBytes_length]; exact hm l (by simp))

/-- Address of a location. -/
theorem target_addr {p : Image} {r : Nat} {l : Loc} (h : p.target r = some l) :
    l = .hdr r ∨ ∃ i s, p.secs[i]? = some s ∧ s.va ≤ r ∧ l = .sec i (r - s.va) := by
  unfold Image.target at h
  split at h
  · injection h with h; exact .inl h.symm
  · split at h
    · cases h
    · next i hi =>
      split at h
      · cases h
      · next s hs =>
        split at h
        · injection h with h
          refine .inr ⟨i, s, hs, ?_, h.symm⟩
          obtain ⟨a, b, _⟩ := List.findIdx?_eq_some_iff_getElem.mp hi
          rw [List.getElem?_eq_some_iff] at hs
          obtain ⟨_, hs⟩ := hs
          rw [hs] at b
          exact (Sec.containsRva_le b).1
        · cases h

/-- The typed raw read at a target returns the bytes of the location. -/
theorem target_read {p : Image} {rva : Nat} (hr : rva < 2 ^ 32) {l : Loc} (h : p.target rva = some l) :
    p.readT p.kind.ptr rva .raw true = .ok (p.getLoc l p.kind.ptr) := by
  have hok := target_ok h
  unfold Image.target at h
  unfold Image.readT
  split at h
  · next hc =>
    injection h with h; subst h
    rw [if_pos ⟨rfl, hc⟩, readN_ok (by omega)]; rfl
  · next hc =>
    split at h
    · cases h
    · next i hi =>
      split at h
      · cases h
      · next s hs =>
        split at h
        · next hb =>
          injection h with h; subst h
          obtain ⟨a, b, _⟩ := List.findIdx?_eq_some_iff_getElem.mp hi
          have hs' := hs
          rw [List.getElem?_eq_some_iff] at hs'
          obtain ⟨_, hs'⟩ := hs'
          rw [hs'] at b
          have hle := (Sec.containsRva_le b).1
          have hsf : p.sectionFromRva rva = .ok s := by
            unfold Image.sectionFromRva
            rw [findIdx?_find?, hi, Option.bind_some, hs]
          rw [if_neg (by rintro ⟨_, h⟩; exact hc h), hsf, ok_bind]
          dsimp only
          show (if s.data.length < _ then _ else readN s.data _ _) = _
          rw [sub32_of_le hle hr, if_neg (by omega), readN_ok hb]
          simp [Image.getLoc, hs]
        · cases h

theorem target_setBase (p : Image) (b rva : Nat) : (p.setImageBase64 b).target rva = p.target rva := rfl

theorem bump_setBase (p : Image) (b : Nat) (l : Loc) (d : Nat) :
    (p.setImageBase64 b).bump l d = (p.bump l d).setImageBase64 b := by
  cases l <;> rfl

theorem foldl_bump_setBase (p : Image) (b : Nat) (ls : List Loc) (d : Nat) :
    ls.foldl (fun q l => q.bump l d) (p.setImageBase64 b) = (ls.foldl (fun q l => q.bump l d) p).setImageBase64 b := by
  induction ls generalizing p with
  | nil => rfl
  | cons l ls ih => simp only [List.foldl_cons, bump_setBase, ih]

theorem readT_target {p : Image} {rva : Nat} (hr : rva < 2 ^ 32) {v : Bytes}
    (hrd : p.readT p.kind.ptr rva .raw true = .ok v) : ∃ l, p.target rva = some l := by
  cases ht : p.target rva with
  | some l => exact ⟨l, rfl⟩
  | none =>
    exfalso
    unfold Image.readT at hrd
    unfold Image.target at ht
    split at ht
    · cases ht
    · next hh =>
      rw [if_neg (by rintro ⟨_, h⟩; exact hh h)] at hrd
      rw [bind_ok_iff] at hrd
      obtain ⟨s, hs, hrd⟩ := hrd
      unfold Image.sectionFromRva at hs
      rw [findIdx?_find?] at hs
      cases hi : p.secs.findIdx? (fun s => s.containsRva p.nt.secAlign rva) with
      | none => rw [hi] at hs; simp [throwE] at hs
      | some i =>
        rw [hi, Option.bind_some] at hs
        cases hsi : p.secs[i]? with
        | none => rw [hsi] at hs; simp [throwE] at hs
        | some s' =>
          rw [hsi] at hs
          injection hs with hs
          subst hs
          rw [hi] at ht
          simp only [hsi] at ht
          split at ht
          · cases ht
          · next hfit =>
            have hcont : s'.containsRva p.nt.secAlign rva = true := by
              obtain ⟨h1, h2, _⟩ := List.findIdx?_eq_some_iff_getElem.mp hi
              rw [List.getElem?_eq_some_iff] at hsi
              obtain ⟨_, hsi⟩ := hsi
              rw [← hsi]; exact h2
            dsimp only at hrd
            change (if s'.data.length < _ then _ else readN s'.data _ _) = _ at hrd
            rw [sub32_of_le (Sec.containsRva_le hcont).1 hr, if_pos (by omega)] at hrd
            cases hrd

theorem rebaseOne_noUB {p : Image} (hb : HeadersBelow p) {delta rva : Nat} (hr : rva < 2 ^ 32) :
    NoUB (p.rebaseOne delta rva) := by
  cases ht : p.target rva with
  | some l => rw [(rebaseOne_iff hb hr).mpr ⟨l, ht, rfl⟩]; exact NoUB.ok _
  | none =>
    have : ∃ e, p.readT p.kind.ptr rva .raw true = .error e := by
      cases hrd : p.readT p.kind.ptr rva .raw true with
      | error e => exact ⟨e, rfl⟩
      | ok v => obtain ⟨l, hl⟩ := readT_target hr hrd; rw [ht] at hl; cases hl
    obtain ⟨e, he⟩ := this
    have hn := readT_noUB p p.kind.ptr rva .raw true
    unfold Image.rebaseOne
    rw [he] at hn ⊢
    exact NoUB.bind hn (fun _ h => by cases h)

theorem rebaseList_noUB {p : Image} (hb : HeadersBelow p) {delta : Nat} {rs : List Nat} (hr : ∀ r ∈ rs, r < 2 ^ 32) :
    NoUB (p.rebaseList delta rs) := by
  induction rs generalizing p with
  | nil => exact NoUB.ok _
  | cons r rs ih =>
    unfold Image.rebaseList
    refine NoUB.bind (rebaseOne_noUB hb (hr r (by simp))) ?_
    intro q hq
    obtain ⟨l, hl, rfl⟩ := (rebaseOne_iff hb (hr r (by simp))).mp hq
    exact ih (hb.shape (bump_shape (target_ok hl))) (fun x hx => hr x (by simp [hx]))

theorem relocTargets_lt (ts : List RelocTable) : ∀ r ∈ relocTargets ts, r < 2 ^ 32 := by
  intro r hr
  unfold relocTargets at hr
  simp only [List.mem_flatMap, List.mem_map] at hr
  obtain ⟨t, _, e, _, rfl⟩ := hr
  exact Nat.mod_lt _ (by decide)

theorem map_some_mem {rs : List Nat} {ls : List Loc} {f : Nat → Option Loc} (h : rs.map f = ls.map some) :
    (∀ l ∈ ls, ∃ r ∈ rs, f r = some l) ∧ (∀ r ∈ rs, ∃ l ∈ ls, f r = some l) := by
  constructor
  · intro l hl
    have : some l ∈ ls.map some := List.mem_map.mpr ⟨l, hl, rfl⟩
    rw [← h] at this
    obtain ⟨r, h1, h2⟩ := List.mem_map.mp this
    exact ⟨r, h1, h2⟩
  · intro r hr
    have : f r ∈ rs.map f := List.mem_map.mpr ⟨r, hr, rfl⟩
    rw [h] at this
    obtain ⟨l, h1, h2⟩ := List.mem_map.mp this
    exact ⟨l, h1, h2.symm⟩

theorem target_pairwise {p : Image} {rs : List Nat} {ls : List Loc} (h : rs.map p.target = ls.map some)
    (hd : rs.Pairwise (fun a b => a + p.kind.ptr ≤ b ∨ b + p.kind.ptr ≤ a)) : ls.Pairwise (Loc.Disjoint p.kind.ptr) := by
  induction rs generalizing ls with
  | nil =>
    cases ls with
    | nil => exact List.Pairwise.nil
    | cons => simp at h
  | cons r rs ih =>
    cases ls with
    | nil => simp at h
    | cons l ls =>
      simp only [List.map_cons, List.cons.injEq] at h
      rw [List.pairwise_cons] at hd ⊢
      refine ⟨?_, ih h.2 hd.2⟩
      intro m hm
      obtain ⟨x, hx, hx2⟩ := (map_some_mem h.2).1 m hm
      exact target_disjoint h.1 hx2 (hd.1 x hx)

end PE
