/-
C83: the mapping state of the sections (`mutable raw_data_`, `mutable old_size_`) cannot be observed, except by a virtual
resize of a section that is mapped.
-/
import Verif.Lemmas.Mapped
namespace PE

/-- C83 (loading): a loaded image stands for the plain image, and no section is mapped. -/
theorem C83_loaded (p : Image) : p.loaded.plain = p ∧ p.loaded.Current ∧ ∀ o ∈ p.loaded.objs, o.oldSize = none := by
  refine ⟨?_, ?_, ?_⟩
  · have : p.secs.map (SecObj.contents ∘ fun s => (⟨s, s.data, none⟩ : SecObj)) = p.secs := by
      apply List.map_id''
      intro s
      rfl
    simp only [MImage.plain, Image.loaded, List.map_map, this]
  · intro o ho
    obtain ⟨s, _, rfl⟩ := List.mem_map.1 ho
    exact .inl rfl
  · intro o ho
    obtain ⟨s, _, rfl⟩ := List.mem_map.1 ho
    rfl

/-- C83 (one look): every access function answers as on the plain image, whatever is mapped, and leaves the plain image
    as it is. -/
theorem C83_ask (m : MImage) (hm : m.Current) (q : Ask) :
    (m.perform q).2 = m.plain.answer q ∧ (m.perform q).1.plain = m.plain ∧ (m.perform q).1.Current :=
  hm.perform q

/-- C83 (one change): every change does to the plain image what the model without mapping state says. -/
theorem C83_change (m : MImage) (hm : m.Current) (c : Change) (hs : c.Safe m) :
    (m.change c).map MImage.plain = m.plain.change c ∧ ∀ m', m.change c = .ok m' → m'.Current :=
  hm.change c hs

/-- C83 (clients): a client that looks and changes in any order gets the results of the plain image. -/
theorem C83_client {α : Type} (c : Client α) (m : MImage) (hm : m.Current) (hc : c.Careful m) :
    (c.run m).map (fun r => (r.1.plain, r.2)) = c.value m.plain ∧ ∀ r, c.run m = .ok r → r.1.Current := by
  induction c generalizing m with
  | done a => exact ⟨rfl, fun r h => by cases h; exact hm⟩
  | ask q k ih =>
    obtain ⟨h1, h2, h3⟩ := hm.perform q
    have h := ih (m.perform q).2 (m.perform q).1 h3 hc
    rw [h2] at h
    have e : (Client.ask q k).value m.plain = (k (m.perform q).2).value m.plain := by rw [h1]; rfl
    rw [e]
    exact h
  | change c k ih =>
    rcases (hm.change c hc.1).cases with ⟨e, h1, h2⟩ | ⟨m', h1, h2, h3⟩
    · unfold Client.run Client.value
      rw [h1, h2]
      exact ⟨rfl, fun r h => by cases h⟩
    · unfold Client.run Client.value
      rw [h1, h2]
      exact ih m' h3 (hc.2 m' h1)

/-- C83 (readers): a client that only looks always finishes, gets the answers of the plain image and leaves it as it
    is. -/
theorem C83_reader {α : Type} (c : Client α) (hr : c.Reader) (m : MImage) (hm : m.Current) :
    ∃ m' a, c.run m = .ok (m', a) ∧ c.value m.plain = .ok (m.plain, a) ∧ m'.plain = m.plain ∧ m'.Current := by
  induction c generalizing m with
  | done a => exact ⟨m, a, rfl, rfl, rfl, hm⟩
  | ask q k ih =>
    obtain ⟨h1, h2, h3⟩ := hm.perform q
    obtain ⟨m', a, e1, e2, e3, e4⟩ := ih (m.perform q).2 (hr _) (m.perform q).1 h3
    rw [h2] at e2 e3
    refine ⟨m', a, e1, ?_, e3, e4⟩
    show (k (m.plain.answer q)).value m.plain = _
    rw [← h1]
    exact e2
  | change c k ih => exact hr.elim

/-- C83 (no resizing): a client that never resizes a section virtually is careful. -/
theorem C83_no_resize {α : Type} (c : Client α) (h : c.NoResize) (m : MImage) : c.Careful m := by
  induction c generalizing m with
  | done a => trivial
  | ask q k ih => exact ih _ (h _) _
  | change c k ih =>
    refine ⟨?_, fun m' _ => ih h.2 m'⟩
    have h1 := h.1
    cases c with
    | vsize i v => exact h1.elim
    | expand i rva n e => cases e <;> first | trivial | exact h1.elim
    | add o u => intro n hn; rw [show o.oldSize = none from h1] at hn; cases hn
    | _ => trivial

/-- C83 (independence): a reader gets the same result whether or not another reader ran before it. -/
theorem C83_independent {α β : Type} (c : Client α) (d : Client β) (hc : c.Reader) (hd : d.Reader) (p : Image) :
    ∃ m₁ m₂ m₃ a b, c.run p.loaded = .ok (m₁, a) ∧ d.run m₁ = .ok (m₂, b) ∧ d.run p.loaded = .ok (m₃, b) ∧
      m₂.plain = p ∧ m₃.plain = p := by
  obtain ⟨hl, hcur, _⟩ := C83_loaded p
  obtain ⟨m₁, a, e1, _, e3, e4⟩ := C83_reader c hc p.loaded hcur
  obtain ⟨m₂, b, f1, f2, f3, _⟩ := C83_reader d hd m₁ e4
  obtain ⟨m₃, b', g1, g2, g3, _⟩ := C83_reader d hd p.loaded hcur
  rw [e3, g2] at f2
  cases f2
  exact ⟨m₁, m₂, m₃, a, b, e1, f1, g1, by rw [f3, e3, hl], by rw [g3, hl]⟩

/-- C83 (relocation reader): `get_relocations` on an image in which any sections are mapped returns what it returns for
    the plain image, and leaves the image as it is. -/
theorem C83_relocations (m : MImage) (hm : m.Current) (listAbs : Bool) :
    ∃ m', (relocationsC listAbs).run m = .ok (m', m.plain.getRelocations listAbs) ∧ m'.plain = m.plain ∧
      m'.Current := by
  have h := relocationsC_computes m.plain listAbs
  generalize relocationsC listAbs = c at h
  obtain ⟨m', a, e1, e2, e3, e4⟩ := C83_reader c h.1 m hm
  rw [h.2] at e2
  rw [← (Prod.mk.inj (Except.ok.inj e2)).2] at e1
  exact ⟨m', e1, e3, e4⟩

/-- C83 (resizing, made safe): after `get_raw_data` of the section a virtual resize is safe. -/
theorem C83_raw_then_resize (m : MImage) (hm : m.Current) (i v : Nat) :
    (Change.vsize i v).Safe (m.perform (.view i .raw)).1 := by
  intro o ho
  replace ho : (m.onObj i (fun o => ((o.view .raw m.img.nt.secAlign).1,
    (.ok (o.view .raw m.img.nt.secAlign).2 : Res Bytes)))).1.objs[i]? = some o := ho
  unfold MImage.onObj at ho
  cases hi : m.objs[i]? with
  | none => rw [hi] at ho; simp [hi] at ho
  | some o2 =>
    rw [hi] at ho
    dsimp only at ho
    rw [List.getElem?_set] at ho
    split at ho
    · split at ho
      · cases ho
        exact (hm.get hi).unmap.2.1
      · cases ho
    · next hne => exact absurd rfl hne

/-! ### The exception: a mapped section is resized -/

/-- One section with 16 raw bytes and virtual size 32 at 0x1000. -/
def mappedDemo : Image :=
  { kind := .pe32, dos := zeros 64, lfanew := 64
    nt := { secAlign := 32, fileAlign := 16, sizeHeaders := 512 }
    secs := [{ va := 4096, vsize := 32, rawSize := 16, data := List.replicate 16 7 }] }

/-- Look at the virtual view of the section, extend it by 32 virtual bytes, read the new bytes. -/
def staleClient : Client (Res Nat × Res Bytes) :=
  .ask (.read 4 4096 .virt false) fun _ =>
    .change (.expand 0 4120 40 .virt) <|
      .ask (.from 4128 4128 .virt false) fun len =>
        .ask (.read 4 4128 .virt false) fun b => .done (len, b)

/-- C83 (limit): the condition on resizing is needed. After a virtual read, `expand_section` in virtual mode and a second
    virtual read, the library reports 32 bytes of data at the new address and refuses to read the first 4 of them; without
    the first read the 4 bytes are there. -/
theorem C83_stale_view :
    ((staleClient.run mappedDemo.loaded).map (·.2)) = .ok (.ok 32, throwE .rvaNotExists) ∧
    ((staleClient.value mappedDemo).map (·.2)) = .ok (.ok 32, .ok [0, 0, 0, 0]) := by
  constructor <;> decide +kernel

/-- C83 (limit, over-read): the pointer taken after such a resize and the length reported for it do not belong
    together: the buffer behind the pointer ends where the new bytes should begin. -/
theorem C83_stale_pointer : ∃ (m : MImage) (buf : Bytes) (off len : Nat),
    (mappedDemo.loaded.perform (.read 4 4096 .virt false)).1.change (.expand 0 4120 40 .virt) = .ok m ∧
    (m.perform (.ptr 4128 .virt false)).2 = (.ok (buf, off) : Res (Bytes × Nat)) ∧
    (m.perform (.from 4128 4128 .virt false)).2 = (.ok len : Res Nat) ∧ off + len > buf.length ∧ off = buf.length :=
  ⟨_, List.replicate 16 7 ++ zeros 16, 32, 32, rfl, rfl, rfl, by decide, by decide⟩

/-! ### Examples -/

/-- A client that maps, writes, grows the raw data, adds a section and looks again. -/
def busyClient : Client (Res Bytes × Res Bytes) :=
  .ask (.read 4 4108 .virt false) fun a =>
    .change (.poke 4096 false [1, 2, 3]) <|
      .ask (.view 0 .virt) fun _ =>
        .change (.expand 0 4096 40 .raw) <|
          .change (.add ⟨{ vsize := 8 }, [9, 9], none⟩ true) <|
            .ask (.read 4 4096 .virt false) fun b => .done (a, b)

example : busyClient.NoResize := by
  intro a
  refine ⟨trivial, fun b => ⟨trivial, rfl, fun c => trivial⟩⟩

example : ((busyClient.run mappedDemo.loaded).map (·.2)) = .ok (.ok [7, 7, 7, 7], .ok [1, 2, 3, 7]) := by rfl

-- the section is mapped after the first look
example : ((mappedDemo.loaded.perform (.read 4 4096 .virt false)).1.objs.map (·.oldSize)) = [some 16] := by rfl

-- a reader
example : (Client.ask (.read 4 4096 .virt false) fun a => .ask (.view 0 .raw) fun b => .done (a, b) :
    Client (Res Bytes × Res Bytes)).Reader := fun _ _ => trivial

end PE
