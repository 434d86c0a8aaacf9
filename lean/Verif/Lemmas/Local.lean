/-
What a rebuilder does depends on its own section and a few words of the headers only, and it changes its own section and its
own words of the headers only.
-/
import Verif.Lemmas.Hdr
import Verif.Lemmas.SaveStream
namespace PE

/-! Changes of the headers -/

/-- One change of the headers made by a rebuilder that stores the directories `ids`; `last`: its section is the last one. -/
inductive NtPrim (ids : List Nat) (last : Prop) : (NtHdr → NtHdr) → Prop
  | dir (id : Nat) (d : Nat × Nat) (h : id ∈ ids) : NtPrim ids last (fun n => { n with dirs := n.dirs.set id d })
  | size (z : Nat) (h : last) : NtPrim ids last (fun n => { n with sizeImage := z })
  | flags : NtPrim ids last (fun n => { n with chars := n.chars &&& (65535 - 0x1), dllChars := n.dllChars ||| 0x40 })

/-- Several such changes. -/
inductive NtUpd (ids : List Nat) (last : Prop) : (NtHdr → NtHdr) → Prop
  | nil : NtUpd ids last (fun n => n)
  | cons {f u : NtHdr → NtHdr} (hf : NtPrim ids last f) (hu : NtUpd ids last u) : NtUpd ids last (fun n => f (u n))

theorem NtUpd.one {ids : List Nat} {last : Prop} {f : NtHdr → NtHdr} (h : NtPrim ids last f) : NtUpd ids last f := .cons h .nil

theorem NtUpd.comp {ids : List Nat} {last : Prop} {u v : NtHdr → NtHdr} (hu : NtUpd ids last u) (hv : NtUpd ids last v) :
    NtUpd ids last (fun n => v (u n)) := by
  induction hv with
  | nil => exact hu
  | cons hf _ ih => exact .cons hf ih

/-- What the changes leave alone. -/
structure NtKeeps (n m : NtHdr) : Prop where
  sa : m.secAlign = n.secAlign
  fa : m.fileAlign = n.fileAlign
  base : m.imageBase = n.imageBase
  nr : m.numRva = n.numRva
  dl : m.dirs.length = n.dirs.length
  sh : m.sizeHeaders = n.sizeHeaders

theorem NtUpd.keeps {ids : List Nat} {last : Prop} {u : NtHdr → NtHdr} (hu : NtUpd ids last u) (n : NtHdr) : NtKeeps n (u n) := by
  induction hu with
  | nil => exact ⟨rfl, rfl, rfl, rfl, rfl, rfl⟩
  | cons hf _ ih =>
    obtain ⟨h1, h2, h3, h4, h5, h6⟩ := ih
    cases hf with
    | dir id d h => exact ⟨h1, h2, h3, h4, by simp only [List.length_set]; exact h5, h6⟩
    | size z h => exact ⟨h1, h2, h3, h4, h5, h6⟩
    | flags => exact ⟨h1, h2, h3, h4, h5, h6⟩

/-- A directory that is not among `ids` is left alone. -/
theorem NtUpd.other {ids : List Nat} {last : Prop} {u : NtHdr → NtHdr} (hu : NtUpd ids last u) {k : Nat} (hk : k ∉ ids)
    (n : NtHdr) : (u n).dirs[k]? = n.dirs[k]? := by
  induction hu with
  | nil => rfl
  | cons hf _ ih =>
    cases hf with
    | dir id d h =>
      show (List.set _ id d)[k]? = _
      rw [List.getElem?_set_ne (fun e : id = k => hk (e ▸ h))]
      exact ih
    | size z h => exact ih
    | flags => exact ih

theorem NtPrim.comm {I J : List Nat} {a b : Prop} {f g : NtHdr → NtHdr} (hd : ∀ x ∈ I, x ∉ J) (hab : ¬ (a ∧ b))
    (hf : NtPrim I a f) (hg : NtPrim J b g) (n : NtHdr) : f (g n) = g (f n) := by
  cases hf with
  | dir id d h =>
    cases hg with
    | dir id' d' h' =>
      have hne : id ≠ id' := fun e => hd id h (e ▸ h')
      show ({ n with dirs := (n.dirs.set id' d').set id d } : NtHdr) = { n with dirs := (n.dirs.set id d).set id' d' }
      rw [List.set_comm _ _ hne]
    | size z h' => rfl
    | flags => rfl
  | size z h =>
    cases hg with
    | dir id' d' h' => rfl
    | size z' h' => exact absurd ⟨h, h'⟩ hab
    | flags => rfl
  | flags =>
    cases hg with
    | dir id' d' h' => rfl
    | size z h' => rfl
    | flags => rfl

theorem NtUpd.comm {I J : List Nat} {a b : Prop} {u v : NtHdr → NtHdr} (hd : ∀ x ∈ I, x ∉ J) (hab : ¬ (a ∧ b))
    (hu : NtUpd I a u) (hv : NtUpd J b v) (n : NtHdr) : u (v n) = v (u n) := by
  have step : ∀ {f : NtHdr → NtHdr}, NtPrim I a f → ∀ n, f (v n) = v (f n) := by
    intro f hf
    induction hv with
    | nil => intro n; rfl
    | cons hg _ ih =>
      intro n
      dsimp only
      rw [NtPrim.comm hd hab hf hg, ih]
  induction hu generalizing n with
  | nil => rfl
  | cons hf _ ih => dsimp only; rw [ih, step hf]

/-! Changes of the image -/

/-- The image with another section `i` and changed headers. -/
def Image.become (p : Image) (i : Nat) (s : Sec) (u : NtHdr → NtHdr) : Image := { p with secs := p.secs.set i s, nt := u p.nt }

theorem become_become (p : Image) (i : Nat) (s t : Sec) (u v : NtHdr → NtHdr) :
    (p.become i s u).become i t v = p.become i t (fun n => v (u n)) := by
  unfold Image.become
  dsimp only
  rw [List.set_set]

theorem become_comm (p : Image) {i j : Nat} (hij : i ≠ j) (s t : Sec) {u v : NtHdr → NtHdr} (huv : ∀ n, u (v n) = v (u n)) :
    (p.become i s u).become j t v = (p.become j t v).become i s u := by
  unfold Image.become
  dsimp only
  rw [List.set_comm _ _ hij, huv]

/-- The images look the same to a rebuilder working on section `i`. -/
structure Alike (i : Nat) (p P : Image) : Prop where
  kind : P.kind = p.kind
  nt : NtKeeps p.nt P.nt
  count : P.secs.length = p.secs.length
  sec : P.secs[i]? = p.secs[i]?

theorem Alike.become {i : Nat} {p P : Image} (h : Alike i p P) (s : Sec) {ids : List Nat} {last : Prop} {u : NtHdr → NtHdr}
    (hu : NtUpd ids last u) : Alike i (p.become i s u) (P.become i s u) := by
  refine ⟨h.kind, ?_, ?_, ?_⟩
  · have k1 := hu.keeps p.nt
    have k2 := hu.keeps P.nt
    exact ⟨k2.sa.trans (h.nt.sa.trans k1.sa.symm), k2.fa.trans (h.nt.fa.trans k1.fa.symm), k2.base.trans (h.nt.base.trans k1.base.symm),
      k2.nr.trans (h.nt.nr.trans k1.nr.symm), k2.dl.trans (h.nt.dl.trans k1.dl.symm),
      k2.sh.trans (h.nt.sh.trans k1.sh.symm)⟩
  · show (P.secs.set i s).length = (p.secs.set i s).length
    rw [List.length_set, List.length_set, h.count]
  · show (P.secs.set i s)[i]? = (p.secs.set i s)[i]?
    rw [List.getElem?_set, List.getElem?_set, h.count, if_pos rfl, if_pos rfl]

theorem Alike.of_become (p : Image) {i j : Nat} (hij : i ≠ j) (s : Sec) {ids : List Nat} {last : Prop} {u : NtHdr → NtHdr}
    (hu : NtUpd ids last u) : Alike j p (p.become i s u) := by
  refine ⟨rfl, hu.keeps p.nt, ?_, ?_⟩
  · show (p.secs.set i s).length = _
    rw [List.length_set]
  · show (p.secs.set i s)[j]? = _
    rw [List.getElem?_set_ne hij]

theorem Alike.symm {i : Nat} {p P : Image} (h : Alike i p P) : Alike i P p :=
  ⟨h.kind.symm, ⟨h.nt.sa.symm, h.nt.fa.symm, h.nt.base.symm, h.nt.nr.symm, h.nt.dl.symm, h.nt.sh.symm⟩, h.count.symm, h.sec.symm⟩

/-- `x` (run on `p`) and `y` (run on `P`) fail alike, or they change section `i` and the headers alike. -/
def Loca {α β : Type} (emb : Image → α → β) (i : Nat) (ids : List Nat) (p P : Image) (x y : Res β) : Prop :=
  (∃ e, x = .error e ∧ y = .error e) ∨
  ∃ s u a, NtUpd ids (i + 1 = p.secs.length) u ∧ x = .ok (emb (p.become i s u) a) ∧ y = .ok (emb (P.become i s u) a)

/-- An image alone. -/
def embI : Image → Unit → Image := fun q _ => q

/-- An image in the state of the import writer. -/
def embS : Image → ImportSt → ImportSt := fun q st => { st with img := q }

section
variable {α β γ δ : Type} {emb : Image → α → β} {emb' : Image → γ → δ} {i : Nat} {ids : List Nat} {p P : Image}

theorem Loca.err (e : Fault) : Loca emb i ids p P (.error e) (.error e) := Or.inl ⟨e, rfl, rfl⟩

theorem Loca.ok' {s : Sec} {u : NtHdr → NtHdr} (hu : NtUpd ids (i + 1 = p.secs.length) u) (a : α) :
    Loca emb i ids p P (.ok (emb (p.become i s u) a)) (.ok (emb (P.become i s u) a)) := Or.inr ⟨s, u, a, hu, rfl, rfl⟩

theorem Loca.bind' {τ : Type} {x : Res τ} {f g : τ → Res β} (hf : ∀ v, Loca emb i ids p P (f v) (g v)) :
    Loca emb i ids p P (x >>= f) (x >>= g) := by
  cases x with
  | error e => exact .err e
  | ok v => exact hf v

theorem Loca.ite {c : Prop} [Decidable c] {x y x' y' : Res β} (h1 : c → Loca emb i ids p P x x') (h2 : ¬ c → Loca emb i ids p P y y') :
    Loca emb i ids p P (if c then x else y) (if c then x' else y') := by
  by_cases hc : c
  · rw [if_pos hc, if_pos hc]; exact h1 hc
  · rw [if_neg hc, if_neg hc]; exact h2 hc

/-- Relative to an image with a changed section: relative to the image itself. -/
theorem Loca.lift {s : Sec} {u : NtHdr → NtHdr} (hu : NtUpd ids (i + 1 = p.secs.length) u) {x y : Res β}
    (h : Loca emb i ids (p.become i s u) (P.become i s u) x y) : Loca emb i ids p P x y := by
  rcases h with ⟨e, h1, h2⟩ | ⟨t, v, a, hv, h1, h2⟩
  · exact Or.inl ⟨e, h1, h2⟩
  · have hv' : NtUpd ids (i + 1 = p.secs.length) v := by
      have e : (p.become i s u).secs.length = p.secs.length := List.length_set
      rw [e] at hv
      exact hv
    rw [become_become] at h1 h2
    exact Or.inr ⟨t, _, a, hu.comp hv', h1, h2⟩

theorem Loca.bind {x y : Res δ} {f g : δ → Res β} (ha : Alike i p P) (hx : Loca emb' i ids p P x y)
    (hf : ∀ p' P' a, Alike i p' P' → Loca emb i ids p' P' (f (emb' p' a)) (g (emb' P' a))) :
    Loca emb i ids p P (x >>= f) (y >>= g) := by
  rcases hx with ⟨e, h1, h2⟩ | ⟨s, u, a, hu, h1, h2⟩
  · rw [h1, h2]; exact .err e
  · rw [h1, h2]
    exact Loca.lift hu (hf _ _ a (ha.become s hu))

end

theorem become_nt (p : Image) {i : Nat} {s : Sec} (hs : p.secs[i]? = some s) (u : NtHdr → NtHdr) :
    p.become i s u = { p with nt := u p.nt } := by
  unfold Image.become
  have : p.secs.set i s = p.secs := by
    apply List.ext_getElem?
    intro k
    rw [List.getElem?_set]
    by_cases hk : i = k
    · subst hk
      rw [if_pos rfl, hs]
      rw [if_pos (List.getElem?_eq_some_iff.mp hs).1]
    · rw [if_neg hk]
  rw [this]

/-- A change of the headers alone. -/
theorem Loca.nt {α β : Type} {emb : Image → α → β} {i : Nat} {ids : List Nat} {p P : Image} {s : Sec} (hs : p.secs[i]? = some s)
    (ha : Alike i p P) {u : NtHdr → NtHdr} (hu : NtUpd ids (i + 1 = p.secs.length) u) (a : α) :
    Loca emb i ids p P (.ok (emb { p with nt := u p.nt } a)) (.ok (emb { P with nt := u P.nt } a)) := by
  refine Or.inr ⟨s, u, a, hu, ?_, ?_⟩
  · rw [become_nt p hs]
  · rw [become_nt P (ha.sec.trans hs)]

/-- Nothing changed. -/
theorem Loca.same {α β : Type} {emb : Image → α → β} {i : Nat} {ids : List Nat} {p P : Image} {s : Sec} (hs : p.secs[i]? = some s)
    (ha : Alike i p P) (a : α) : Loca emb i ids p P (.ok (emb p a)) (.ok (emb P a)) :=
  Loca.nt (u := fun n => n) hs ha .nil a

/-! Steps of the rebuilders -/

theorem updateImageSize_become {p : Image} {i : Nat} (s : Sec) (hl : i + 1 = p.secs.length) :
    ({ p with secs := p.secs.set i s } : Image).updateImageSize =
      p.become i s (fun n => { n with sizeImage := w32 (s.va + s.alignedVS p.nt.secAlign) }) := by
  have hg : (p.secs.set i s).getLast? = some s := by
    rw [List.getLast?_eq_getElem?, List.length_set, ← hl, Nat.add_sub_cancel,
      List.getElem?_set_self (by omega)]
  unfold Image.updateImageSize
  show (match (p.secs.set i s).getLast? with | some s => _ | none => _) = _
  rw [hg]
  rfl

theorem setVirtualSize_loc {p P : Image} {i : Nat} {ids : List Nat} (ha : Alike i p P) (n : Nat) :
    Loca embI i ids p P (p.setSectionVirtualSize i n) (P.setSectionVirtualSize i n) := by
  unfold Image.setSectionVirtualSize
  rw [ha.sec, ha.count]
  cases hs : p.secs[i]? with
  | none => exact .err _
  | some s =>
    dsimp only
    refine Loca.ite (fun _ => .err _) fun h1 => ?_
    have hl : i + 1 = p.secs.length := Decidable.not_not.mp h1
    have hl' : i + 1 = P.secs.length := hl.trans ha.count.symm
    have key : ∀ t : Sec, Loca embI i ids p P (.ok ({ p with secs := p.secs.set i t } : Image).updateImageSize)
        (.ok ({ P with secs := P.secs.set i t } : Image).updateImageSize) := by
      intro t
      rw [updateImageSize_become t hl, updateImageSize_become t hl', ha.nt.sa]
      exact Loca.ok' (emb := embI) (.one (.size _ hl)) ()
    refine Loca.ite (fun _ => Loca.ite (fun _ => .err _) fun _ => ?_) fun _ => ?_
    · exact key _
    · exact key _

/-- Writing a section back is a step of this form. -/
theorem Loca.put {α β : Type} {emb : Image → α → β} {i : Nat} {ids : List Nat} {p P : Image} (s : Sec) {x y : Res β}
    (h : Loca emb i ids ({ p with secs := p.secs.set i s } : Image) ({ P with secs := P.secs.set i s } : Image) x y) :
    Loca emb i ids p P x y := Loca.lift (u := fun n => n) .nil h

theorem Alike.put {i : Nat} {p P : Image} (ha : Alike i p P) (s : Sec) :
    Alike i ({ p with secs := p.secs.set i s } : Image) ({ P with secs := P.secs.set i s } : Image) :=
  ha.become (ids := []) (last := False) s .nil

theorem Loca.putOk {α β : Type} {emb : Image → α → β} {i : Nat} {ids : List Nat} {p P : Image} (s : Sec) (a : α) :
    Loca emb i ids p P (.ok (emb { p with secs := p.secs.set i s } a)) (.ok (emb { P with secs := P.secs.set i s } a)) :=
  Loca.ok' (u := fun n => n) .nil a

theorem recalculate_loc {p P : Image} {i : Nat} {ids : List Nat} (ha : Alike i p P) (b : Bool) :
    Loca embI i ids p P (p.recalculateSectionSizes i b) (P.recalculateSectionSizes i b) := by
  unfold Image.recalculateSectionSizes
  rw [ha.sec, ha.count, ha.nt.sa, ha.nt.fa]
  cases hs : p.secs[i]? with
  | none => exact .err _
  | some s =>
    refine Loca.bind' fun s' => ?_
    dsimp only
    generalize (if b = true ∧ i + 1 ≠ p.secs.length then
      ({ s' with data := (stripKeepOne s'.data.reverse).reverse, rawSize := w32 (stripKeepOne s'.data.reverse).reverse.length } : Sec)
      else s') = t
    rw [ha.nt.sa, ha.nt.fa]
    refine Loca.ite (fun _ => ?_) fun _ => ?_
    · exact Loca.put t (setVirtualSize_loc (ha.put t) _)
    · exact Loca.putOk (emb := embI) t ()

theorem setDir_two {h H : NtHdr} (k : NtKeeps h H) (id a b : Nat) :
    (∃ e, (h.setDirRva id a >>= fun n => n.setDirSize id b) = .error e ∧ (H.setDirRva id a >>= fun n => n.setDirSize id b) = .error e) ∨
    ((h.setDirRva id a >>= fun n => n.setDirSize id b) = .ok { h with dirs := h.dirs.set id (a, b) } ∧
      (H.setDirRva id a >>= fun n => n.setDirSize id b) = .ok { H with dirs := H.dirs.set id (a, b) }) := by
  have key : ∀ n : NtHdr, ¬ n.numRva ≤ id → id < n.dirs.length →
      (n.setDirRva id a >>= fun m => m.setDirSize id b) = .ok { n with dirs := n.dirs.set id (a, b) } := by
    intro n g1 g2
    unfold NtHdr.setDirRva NtHdr.setDirSize NtHdr.dirAt NtHdr.dirSet
    rw [if_neg g1, List.getElem?_eq_getElem g2]
    dsimp only
    show ((if id < n.dirs.length then _ else _) >>= _) = _
    rw [if_pos g2]
    show (if n.numRva ≤ id then _ else _) = _
    rw [if_neg g1]
    have e : (n.dirs.set id (a, n.dirs[id].2))[id]? = some (a, n.dirs[id].2) := List.getElem?_set_self g2
    rw [e]
    show (if id < (n.dirs.set id (a, n.dirs[id].2)).length then _ else _) = _
    rw [if_pos (by rw [List.length_set]; exact g2), List.set_set]
  have bad1 : ∀ n : NtHdr, n.numRva ≤ id →
      (n.setDirRva id a >>= fun m => m.setDirSize id b) = .error (.exn .directoryDoesNotExist) := by
    intro n g
    unfold NtHdr.setDirRva
    rw [if_pos g]
    rfl
  have bad2 : ∀ n : NtHdr, ¬ n.numRva ≤ id → ¬ id < n.dirs.length →
      (n.setDirRva id a >>= fun m => m.setDirSize id b) = .error (.ub .oobIndex) := by
    intro n g1 g2
    unfold NtHdr.setDirRva NtHdr.dirAt
    rw [if_neg g1, List.getElem?_eq_none (by omega)]
    rfl
  by_cases h1 : h.numRva ≤ id
  · exact Or.inl ⟨_, bad1 h h1, bad1 H (by rw [k.nr]; exact h1)⟩
  · by_cases h2 : id < h.dirs.length
    · exact Or.inr ⟨key h h1 h2, key H (by rw [k.nr]; exact h1) (by rw [k.dl]; exact h2)⟩
    · exact Or.inl ⟨_, bad2 h h1 h2, bad2 H (by rw [k.nr]; exact h1) (by rw [k.dl]; exact h2)⟩

/-- Storing a directory, followed by an operation that changes the headers. -/
theorem storeDir_loc {p P : Image} {i : Nat} {s : Sec} (hs : p.secs[i]? = some s) {ids : List Nat} (ha : Alike i p P) {id a b : Nat}
    (hid : id ∈ ids) {f : NtHdr → NtHdr} (hf : NtUpd ids (i + 1 = p.secs.length) f) (dir : Nat × Nat) :
    Loca Prod.mk i ids p P
      (p.nt.setDirRva id a >>= fun n => n.setDirSize id b >>= fun n => .ok (({ p with nt := f n } : Image), dir))
      (P.nt.setDirRva id a >>= fun n => n.setDirSize id b >>= fun n => .ok (({ P with nt := f n } : Image), dir)) := by
  have assoc : ∀ (h : NtHdr) (g : NtHdr → Res (Image × (Nat × Nat))),
      (h.setDirRva id a >>= fun n => n.setDirSize id b >>= g) = ((h.setDirRva id a >>= fun n => n.setDirSize id b) >>= g) := by
    intro h g
    cases h.setDirRva id a <;> rfl
  rw [assoc, assoc]
  rcases setDir_two ha.nt id a b with ⟨e, h1, h2⟩ | ⟨h1, h2⟩
  · rw [h1, h2]; exact .err e
  · rw [h1, h2]
    exact Loca.nt (emb := Prod.mk) (u := fun n => f { n with dirs := n.dirs.set id (a, b) }) hs ha
      (NtUpd.comp (.one (.dir id (a, b) hid)) hf) dir

theorem Loca.bindI {α β : Type} {emb : Image → α → β} {i : Nat} {ids : List Nat} {p P : Image}
    {x y : Res Image} {f g : Image → Res β} (ha : Alike i p P) (hx : Loca embI i ids p P x y) (hi : i < p.secs.length)
    (hf : ∀ p' P' s, p'.secs[i]? = some s → i < p'.secs.length → Alike i p' P' → Loca emb i ids p' P' (f p') (g P')) :
    Loca emb i ids p P (x >>= f) (y >>= g) := by
  rcases hx with ⟨e, h1, h2⟩ | ⟨s, u, a, hu, h1, h2⟩
  · rw [h1, h2]; exact .err e
  · rw [h1, h2]
    have e : (p.become i s u).secs[i]? = some s := List.getElem?_set_self hi
    exact Loca.lift hu (hf _ _ s e (List.getElem?_eq_some_iff.mp e).1 (ha.become s hu))

theorem finishDir_loc {p P : Image} {i : Nat} {ids : List Nat} (hi : i < p.secs.length) (ha : Alike i p P) (s : Sec) (d : Bytes)
    (strip save : Bool) {id : Nat} (hid : save = true → id ∈ ids) (dir : Nat × Nat) :
    Loca Prod.mk i ids p P (p.finishDir i s d strip save id dir) (P.finishDir i s d strip save id dir) := by
  unfold Image.finishDir
  refine Loca.put _ (Loca.bindI (ha.put _) (recalculate_loc (ha.put _) strip) (by simpa using hi) ?_)
  intro p' P' t ht _ ha'
  cases save with
  | true => exact storeDir_loc ht ha' (hid rfl) (f := fun n => n) .nil dir
  | false => exact Loca.same (emb := Prod.mk) ht ha' dir

/-! The rebuilders -/

theorem spaceCheck_loc {p P : Image} {i : Nat} (ha : Alike i p P) (s : Sec) (n : Nat) : P.spaceCheck i s n = p.spaceCheck i s n := by
  unfold Image.spaceCheck
  rw [ha.count, ha.nt.fa]

theorem rvaToVa_loc {p P : Image} {i : Nat} (ha : Alike i p P) (r : Nat) : P.rvaToVa r = p.rvaToVa r := by
  unfold Image.rvaToVa Image.rvaToVa32 Image.rvaToVa64
  rw [ha.kind, ha.nt.base]

theorem tableVa_loc {p P : Image} {i : Nat} (ha : Alike i p P) (w : Bool) (l : List Nat) (a b c : Nat) :
    P.tableVa w l a b c = p.tableVa w l a b c := by
  unfold Image.tableVa
  rw [ha.kind, rvaToVa_loc ha]

theorem writeLocks_loc {p P : Image} {i : Nat} (ha : Alike i p P) (l : List Nat) (d : Bytes) (pos : Nat) :
    P.writeLocks d pos l = p.writeLocks d pos l := by
  induction l generalizing d pos with
  | nil => unfold Image.writeLocks; rw [ha.kind]
  | cons x l ih =>
    unfold Image.writeLocks
    simp only [ih, ha.kind, rvaToVa_loc ha]

theorem vaOrZero_loc {p P : Image} {i : Nat} (ha : Alike i p P) (r : Nat) : P.vaOrZero r = p.vaOrZero r := by
  unfold Image.vaOrZero
  rw [rvaToVa_loc ha]

theorem tlsStruct_loc {p P : Image} {i : Nat} (ha : Alike i p P) (t : TlsInfo) : P.tlsStruct t = p.tlsStruct t := by
  unfold Image.tlsStruct
  simp only [vaOrZero_loc ha, rvaToVa_loc ha, ha.kind]

section
variable {p P : Image} {i : Nat} {ids : List Nat}

theorem rebuildExports_loc (ha : Alike i p P) (info : ExportInfo) (l : List ExportFn) (off : Nat) (save strip : Bool)
    (hid : save = true → dirExport ∈ ids) :
    Loca Prod.mk i ids p P (p.rebuildExports info l i off save strip) (P.rebuildExports info l i off save strip) := by
  unfold Image.rebuildExports
  rw [ha.sec]
  cases hs : p.secs[i]? with
  | none => exact .err _
  | some s =>
    have hi := (List.getElem?_eq_some_iff.mp hs).1
    simp only [spaceCheck_loc ha]
    exact Loca.bind' fun _ => Loca.bind' fun _ => Loca.bind' fun _ => Loca.bind' fun _ => Loca.bind' fun _ => Loca.bind' fun _ =>
      finishDir_loc hi ha _ _ _ _ hid _

theorem rebuildResources_loc (ha : Alike i p P) (r : ResDir) (off : Nat) (save strip : Bool)
    (hid : save = true → dirResource ∈ ids) :
    Loca Prod.mk i ids p P (p.rebuildResources r i off save strip) (P.rebuildResources r i off save strip) := by
  unfold Image.rebuildResources
  rw [ha.sec]
  cases hs : p.secs[i]? with
  | none => exact .err _
  | some s =>
    have hi := (List.getElem?_eq_some_iff.mp hs).1
    simp only [spaceCheck_loc ha]
    exact Loca.bind' fun _ => Loca.bind' fun _ => Loca.bind' fun _ => Loca.bind' fun _ => finishDir_loc hi ha _ _ _ _ hid _

theorem rebuildBound_loc (ha : Alike i p P) (l : List BoundMod) (off : Nat) (save strip : Bool)
    (hid : save = true → dirBoundImport ∈ ids) :
    Loca Prod.mk i ids p P (p.rebuildBound l i off save strip) (P.rebuildBound l i off save strip) := by
  unfold Image.rebuildBound
  rw [ha.sec]
  cases hs : p.secs[i]? with
  | none => exact .err _
  | some s =>
    have hi := (List.getElem?_eq_some_iff.mp hs).1
    simp only [spaceCheck_loc ha]
    exact Loca.bind' fun _ => Loca.bind' fun _ => finishDir_loc hi ha _ _ _ _ hid _

theorem rebuildConfig_loc (ha : Alike i p P) (c : ConfigInfo) (off : Nat) (wse wlock save strip : Bool)
    (hid : save = true → dirLoadConfig ∈ ids) :
    Loca Prod.mk i ids p P (p.rebuildConfig c i off wse wlock save strip) (P.rebuildConfig c i off wse wlock save strip) := by
  unfold Image.rebuildConfig
  rw [ha.sec]
  cases hs : p.secs[i]? with
  | none => exact .err _
  | some s =>
    have hi := (List.getElem?_eq_some_iff.mp hs).1
    simp only [spaceCheck_loc ha, tableVa_loc ha, writeLocks_loc ha, ha.kind]
    refine Loca.bind' fun _ => Loca.bind' fun _ => Loca.bind' fun _ => Loca.bind' fun _ => Loca.bind' fun _ => ?_
    exact Loca.ite (fun _ => Loca.bind' fun _ => finishDir_loc hi ha _ _ _ _ hid _) fun _ => finishDir_loc hi ha _ _ _ _ hid _

/-- TLS: the structure alone; data and callbacks may be in other sections. -/
theorem rebuildTls_loc (ha : Alike i p P) (t : TlsInfo) (off : Nat) (e : ExpandType) (save strip : Bool)
    (hid : save = true → dirTls ∈ ids) :
    Loca Prod.mk i ids p P (p.rebuildTls t i off false false e save strip) (P.rebuildTls t i off false false e save strip) := by
  unfold Image.rebuildTls
  rw [ha.sec]
  cases hs : p.secs[i]? with
  | none => exact .err _
  | some s =>
    have hi := (List.getElem?_eq_some_iff.mp hs).1
    have e0 : P.kind.ptr = p.kind.ptr := by rw [ha.kind]
    have e3 : P.kind.sizeofTls = p.kind.sizeofTls := by rw [ha.kind]
    simp only [spaceCheck_loc ha, tlsStruct_loc ha, e0, e3]
    refine Loca.bind' fun _ => Loca.bind' fun _ => Loca.bind' fun _ => Loca.bind' fun d => ?_
    unfold Image.tlsPutDataIf Image.tlsPutCallbacksIf
    show Loca Prod.mk i ids p P (Image.tlsFinish _ i _ save strip) (Image.tlsFinish _ i _ save strip)
    unfold Image.tlsFinish
    refine Loca.put { s with data := d } ?_
    have e1 : (p.secs.set i { s with data := d })[i]? = some { s with data := d } := List.getElem?_set_self hi
    have e2 : (P.secs.set i { s with data := d })[i]? = some { s with data := d } := List.getElem?_set_self (by rw [ha.count]; exact hi)
    dsimp only
    rw [e1, e2]
    dsimp only
    rw [e3]
    exact finishDir_loc (by simpa using hi) (ha.put _) _ _ _ _ hid _

theorem rebuildRelocations_loc (ha : Alike i p P) (l : List RelocTable) (off : Nat) (save strip : Bool)
    (hid : save = true → dirBaseReloc ∈ ids) :
    Loca Prod.mk i ids p P (p.rebuildRelocations l i off save strip) (P.rebuildRelocations l i off save strip) := by
  unfold Image.rebuildRelocations
  rw [ha.sec]
  cases hs : p.secs[i]? with
  | none => exact .err _
  | some s =>
    have hi := (List.getElem?_eq_some_iff.mp hs).1
    dsimp only
    rw [ha.count, ha.nt.fa]
    refine Loca.bind' fun _ => Loca.bind' fun d => ?_
    refine Loca.put _ (Loca.bindI (ha.put _) (recalculate_loc (ha.put _) strip) (by simpa using hi) ?_)
    intro p' P' t ht _ ha'
    cases save with
    | true =>
      exact storeDir_loc ht ha' (hid rfl)
        (f := fun n => { n with chars := n.chars &&& (65535 - 0x1), dllChars := n.dllChars ||| 0x40 }) (.one .flags) _
    | false => exact Loca.same (emb := Prod.mk) ht ha' _

/-! Imports, without rewriting of kept tables -/

theorem rawPut_loc (ha : Alike i p P) (pos : Nat) (x : Bytes) : Loca embI i ids p P (p.rawPut i pos x) (P.rawPut i pos x) := by
  unfold Image.rawPut Image.writeLoc
  dsimp only
  rw [ha.sec]
  cases hs : p.secs[i]? with
  | none => exact .err _
  | some s => exact Loca.bind' fun b => Loca.putOk (emb := embI) _ ()

end

/-- Two states of the import writer that differ in the image only. -/
def StAlike (i : Nat) (a b : ImportSt) : Prop := Alike i a.img b.img ∧ b = { a with img := b.img } ∧ i < a.img.secs.length

/-- Steps of the import writer: states `a`, `b` become `x`, `y`. -/
def StLoca (i : Nat) (ids : List Nat) (a b : ImportSt) (x y : Res ImportSt) : Prop := Loca embS i ids a.img b.img x y

theorem StLoca.bindI {i : Nat} {ids : List Nat} {a b : ImportSt} {x y : Res Image} {f g : Image → Res ImportSt} (hab : StAlike i a b)
    (hx : Loca embI i ids a.img b.img x y)
    (hf : ∀ p' P', Alike i p' P' → i < p'.secs.length → Loca embS i ids p' P' (f p') (g P')) :
    StLoca i ids a b (x >>= f) (y >>= g) :=
  Loca.bindI hab.1 hx hab.2.2 fun p' P' _ _ hi ha => hf p' P' ha hi

theorem StLoca.bind {i : Nat} {ids : List Nat} {a b : ImportSt} {x y : Res ImportSt} {f g : ImportSt → Res ImportSt}
    (hab : StAlike i a b) (hx : StLoca i ids a b x y) (hf : ∀ c d, StAlike i c d → StLoca i ids c d (f c) (g d)) :
    StLoca i ids a b (x >>= f) (y >>= g) := by
  rcases hx with ⟨e, h1, h2⟩ | ⟨s, u, st, hu, h1, h2⟩
  · rw [h1, h2]; exact .err e
  · rw [h1, h2]
    refine Loca.lift hu (hf _ _ ⟨hab.1.become s hu, rfl, ?_⟩)
    show i < (a.img.secs.set i s).length
    rw [List.length_set]
    exact hab.2.2

theorem Loca.sameI {α β : Type} {emb : Image → α → β} {i : Nat} {ids : List Nat} {p P : Image} (hi : i < p.secs.length)
    (ha : Alike i p P) (a : α) : Loca emb i ids p P (.ok (emb p a)) (.ok (emb P a)) :=
  Loca.same (List.getElem?_eq_getElem hi) ha a

theorem StLoca.same {i : Nat} {ids : List Nat} {a b : ImportSt} (hab : StAlike i a b) : StLoca i ids a b (.ok a) (.ok b) := by
  obtain ⟨ha, hb, hi⟩ := hab
  have := Loca.sameI (emb := embS) (ids := ids) hi ha a
  unfold StLoca
  rw [hb]
  exact this

section
variable {i : Nat} {ids : List Nat} {a b : ImportSt}

theorem StAlike.eq {a b : ImportSt} (h : StAlike i a b) : ∃ P, b = { a with img := P } ∧ Alike i a.img P ∧ i < a.img.secs.length :=
  ⟨b.img, h.2.1, h.1, h.2.2⟩

/-- One write into the section, after which the positions are `st`. -/
theorem stPut_loc {P : Image} (ha : Alike i a.img P) (hi : i < a.img.secs.length) (pos : Nat) (x : Bytes) (st : ImportSt) :
    StLoca i ids a { a with img := P } (a.img.rawPut i pos x >>= fun q => .ok { st with img := q })
      (P.rawPut i pos x >>= fun q => .ok { st with img := q }) :=
  StLoca.bindI ⟨ha, rfl, hi⟩ (rawPut_loc ha pos x) fun _ _ ha' hi' => Loca.sameI (emb := embS) hi' ha' st

theorem putIat_loc (h : StAlike i a b) {pl : ImportPlan} (hp : pl.rewIat = false) (adv : Bool) (v : Nat) :
    StLoca i ids a b (a.putIat i pl adv v) (b.putIat i pl adv v) := by
  obtain ⟨P, rfl, ha, hi⟩ := h.eq
  have e : P.kind.ptr = a.img.kind.ptr := by rw [ha.kind]
  unfold ImportSt.putIat
  rw [hp]
  dsimp only
  rw [e]
  exact stPut_loc ha hi _ _ { a with iat := if adv then w32 (a.iat + a.img.kind.ptr) else a.iat }

theorem putOrig_loc (h : StAlike i a b) {pl : ImportPlan} (hp : pl.rewOrig = false) (v : Nat) :
    StLoca i ids a b (a.putOrig i pl v) (b.putOrig i pl v) := by
  obtain ⟨P, rfl, ha, hi⟩ := h.eq
  have e : P.kind.ptr = a.img.kind.ptr := by rw [ha.kind]
  unfold ImportSt.putOrig
  rw [hp]
  dsimp only
  rw [e]
  exact stPut_loc ha hi _ _ { a with orig := w32 (a.orig + a.img.kind.ptr) }

theorem fnOrig_loc (h : StAlike i a b) {pl : ImportPlan} (hp : pl.rewOrig = false) (v : Nat) :
    StLoca i ids a b (a.fnOrig i pl v) (b.fnOrig i pl v) :=
  Loca.ite (fun _ => putOrig_loc h hp v) fun _ => StLoca.same h

theorem fnIat_loc (h : StAlike i a b) {pl : ImportPlan} (hp : pl.rewIat = false) (f : ImportFn) (v : Nat) :
    StLoca i ids a b (a.fnIat i pl f v) (b.fnIat i pl f v) :=
  Loca.ite (fun _ => StLoca.same h) fun _ => Loca.ite (fun _ => putIat_loc h hp _ _) fun _ => putIat_loc h hp _ _

theorem endIat_loc (h : StAlike i a b) {pl : ImportPlan} (hp : pl.rewIat = false) :
    StLoca i ids a b (a.endIat i pl) (b.endIat i pl) :=
  Loca.ite (fun _ => StLoca.same h) fun _ => putIat_loc h hp _ _

/-- Two writes into the section. -/
theorem stPut2_loc {P : Image} (ha : Alike i a.img P) (hi : i < a.img.secs.length) (pos pos' : Nat) (x x' : Bytes) (st : ImportSt) :
    StLoca i ids a { a with img := P }
      (a.img.rawPut i pos x >>= fun q => q.rawPut i pos' x' >>= fun q => .ok { st with img := q })
      (P.rawPut i pos x >>= fun q => q.rawPut i pos' x' >>= fun q => .ok { st with img := q }) :=
  StLoca.bindI ⟨ha, rfl, hi⟩ (rawPut_loc ha pos x) fun p' _ ha' hi' =>
    stPut_loc (a := { a with img := p' }) ha' hi' pos' x' st

theorem putFn_loc (h : StAlike i a b) (va : Nat) {pl : ImportPlan} (hp : pl.rewIat = false) (hq : pl.rewOrig = false)
    (f : ImportFn) : StLoca i ids a b (a.putFn i va pl f) (b.putFn i va pl f) := by
  have e : b.img.kind.ptr = a.img.kind.ptr := by rw [h.1.kind]
  have e2 : b.str = a.str := by rw [h.2.1]
  unfold ImportSt.putFn
  dsimp only
  rw [e, e2]
  refine StLoca.bind h (fnIat_loc h hp f _) fun c d hcd => StLoca.bind hcd (fnOrig_loc hcd hq _) fun c d hcd => ?_
  refine Loca.ite (fun _ => ?_) fun _ => StLoca.same hcd
  obtain ⟨P, rfl, ha, hi⟩ := hcd.eq
  exact stPut2_loc ha hi _ _ _ _ { c with str := w32 (c.str + (f.name.length + 1 + 2)) }

theorem putFns_loc (va : Nat) {pl : ImportPlan} (hp : pl.rewIat = false) (hq : pl.rewOrig = false)
    (l : List ImportFn) {a b : ImportSt} (h : StAlike i a b) : StLoca i ids a b (a.putFns i va pl l) (b.putFns i va pl l) := by
  induction l generalizing a b with
  | nil => exact StLoca.same h
  | cons f l ih => exact StLoca.bind h (putFn_loc h va hp hq f) fun c d hcd => ih hcd

theorem putLib_loc (h : StAlike i a b) {c : ImportCfg} (hc : c.rewrite = false) (va desc : Nat) (l : ImportLib) :
    StLoca i ids a b (a.putLib c i va desc l) (b.putLib c i va desc l) := by
  obtain ⟨h1, h2⟩ := plan_noRewrite hc va a.iat a.orig l
  obtain ⟨P, rfl, ha, hi⟩ := h.eq
  refine StLoca.bindI ⟨ha, rfl, hi⟩ (rawPut_loc ha _ _) fun p' P' ha' hi' => ?_
  refine StLoca.bindI (a := { a with img := p' }) (b := { a with img := P' }) ⟨ha', rfl, hi'⟩ (rawPut_loc ha' _ _) fun p2 P2 ha2 hi2 => ?_
  exact StLoca.bind ⟨ha2, rfl, hi2⟩ (putFns_loc va h1 h2 l.funcs ⟨ha2, rfl, hi2⟩) fun c d hcd =>
    StLoca.bind hcd (endIat_loc hcd h1) fun c d hcd => fnOrig_loc hcd h2 0

theorem putLibs_loc {c : ImportCfg} (hc : c.rewrite = false) (va desc : Nat) (l : List ImportLib) {a b : ImportSt}
    (h : StAlike i a b) : StLoca i ids a b (a.putLibs c i va desc l) (b.putLibs c i va desc l) := by
  induction l generalizing a b desc with
  | nil =>
    obtain ⟨P, rfl, ha, hi⟩ := h.eq
    exact stPut_loc ha hi _ _ a
  | cons f l ih => exact StLoca.bind h (putLib_loc h hc va desc f) fun c d hcd => ih _ hcd

theorem rebuildImports_loc {p P : Image} (ha : Alike i p P) (ls : List ImportLib) {c : ImportCfg} (hc : c.rewrite = false)
    (off : Nat) (save zero strip : Bool) (hid : save = true → dirImport ∈ ids) (hiat : save = true → zero = true → dirIat ∈ ids) :
    Loca Prod.mk i ids p P (p.rebuildImports ls i c off save zero strip) (P.rebuildImports ls i c off save zero strip) := by
  unfold Image.rebuildImports
  rw [ha.sec]
  cases hs : p.secs[i]? with
  | none => exact .err _
  | some s =>
    have hi := (List.getElem?_eq_some_iff.mp hs).1
    have e : P.kind.ptr = p.kind.ptr := by rw [ha.kind]
    dsimp only
    rw [e, spaceCheck_loc ha]
    refine Loca.bind' fun _ => ?_
    generalize w32 ((1 + ls.length) * 20 + (if (c.buildOrig || c.fill) = true then w32 (importIatSize p.kind.ptr ls) * 2
      else w32 (importIatSize p.kind.ptr ls)) + p.kind.ptr + w32 (importStrings ls)) = need
    generalize w32 (importStrings ls) = strings
    generalize alignUp (w32 (strings + off + (1 + ls.length) * 20)) p.kind.ptr = iat
    generalize w32 (importIatSize p.kind.ptr ls) = isz
    generalize ({ s with data := growTo s.data (w32 (need + off)) } : Sec) = t
    refine Loca.put t ?_
    have hst : StAlike i { img := { p with secs := p.secs.set i t }, str := off, iat := iat, orig := w32 (iat + isz) }
        { img := { P with secs := P.secs.set i t }, str := off, iat := iat, orig := w32 (iat + isz) } :=
      ⟨ha.put t, rfl, by simpa using hi⟩
    rcases putLibs_loc (ids := ids) hc s.va (w32 (strings + off)) ls hst with ⟨e, h1, h2⟩ | ⟨t', u, st, hu, h1, h2⟩
    · rw [h1, h2]; exact .err e
    · rw [h1, h2]
      refine Loca.lift (s := t') hu ?_
      have ha' := (ha.put t).become t' hu
      have e1 : (({ p with secs := p.secs.set i t } : Image).become i t' u).secs[i]? = some t' :=
        List.getElem?_set_self (by simpa using hi)
      have e2 := ha'.sec.trans e1
      show Loca _ _ _ _ _ (match (embS _ st).img.secs[i]? with | none => _ | some s' => _)
        (match (embS _ st).img.secs[i]? with | none => _ | some s' => _)
      unfold embS
      dsimp only
      rw [e1, e2]
      dsimp only
      generalize ({ p with secs := p.secs.set i t } : Image).become i t' u = p' at ha' e1 e2
      generalize ({ P with secs := P.secs.set i t } : Image).become i t' u = P' at ha' e2
      have hi' := (List.getElem?_eq_some_iff.mp e1).1
      rcases finishDir_loc (ids := ids) hi' ha' t' (resize t'.data st.orig) strip save hid
        (w32 (s.va + w32 (off + strings)), sub32 need strings) with ⟨e, h1, h2⟩ | ⟨t2, u2, dir, hu2, h1, h2⟩
      · rw [h1, h2]; exact .err e
      · rw [h1, h2]
        refine Loca.lift (s := t2) hu2 ?_
        have ha2 := ha'.become t2 hu2
        have e3 : (p'.become i t2 u2).secs[i]? = some t2 := List.getElem?_set_self hi'
        refine Loca.ite (fun hz => ?_) fun _ => Loca.same (emb := Prod.mk) e3 ha2 dir
        have hz' : save = true ∧ zero = true := by simpa using hz
        exact storeDir_loc e3 ha2 (hiat hz'.1 hz'.2) (f := fun n => n) .nil dir

end

end PE
