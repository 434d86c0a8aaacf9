/-
C38, C40, C64, C66: functions that pick something and hand it to a reader.
-/
import Verif.Props.ResourceData
import Verif.Props.VersionEdit
import Verif.Props.Debug

namespace PE

/-- C38: with an index instead of a language, a bitmap is the one of the language at that position; an index that is too large throws. -/
theorem C38_at (r d : ResDir) (k : ResKey) (h : r.sub [.id 2, k] = some d) (index : Nat) :
    (d.es.length ≤ index → r.getBitmapAt k index = throwE .resourceDataEntryNotFound) ∧
    (∀ ls, r.listLanguages (.id 2) k = .ok ls → (∀ e ∈ d.es, e.isNamed = false) → (d.es.map ResEntry.key).Nodup →
      ∀ l, ls[index]? = some l → r.getBitmapAt k index = r.getBitmap k l) := by
  obtain ⟨h1, h2⟩ := C59_index r d (.id 2) k h index
  unfold ResDir.getBitmapAt ResDir.getBitmap typeBitmap
  refine ⟨fun hi => by rw [h1 hi]; rfl, fun ls hl hn hd l hi => by rw [h2 ls hl hn hd l hi]⟩

/-- C40: a message table is looked up among the resources of type 11 under its number and language; what is found is parsed, and what the lookup
    throws is passed on. -/
theorem C40_lookup (r : ResDir) (id lang : Nat) :
    (∀ cp d, r.getData (.id 11) (.id id) lang = .ok (cp, d) → r.messageTable id lang = parseMessageList d) ∧
    (∀ e, r.getData (.id 11) (.id id) lang = .error e → r.messageTable id lang = .error e) := by
  unfold ResDir.messageTable typeMessages
  exact ⟨fun cp d h => by rw [h, ok_bind], fun e h => by rw [h]; rfl⟩

/-- C40: the same with an index. -/
theorem C40_at (r d : ResDir) (id : Nat) (h : r.sub [.id 11, .id id] = some d) (index : Nat) :
    (d.es.length ≤ index → r.messageTableAt id index = throwE .resourceDataEntryNotFound) ∧
    (∀ ls, r.listLanguages (.id 11) (.id id) = .ok ls → (∀ e ∈ d.es, e.isNamed = false) → (d.es.map ResEntry.key).Nodup →
      ∀ l, ls[index]? = some l → r.messageTableAt id index = r.messageTable id l) := by
  obtain ⟨h1, h2⟩ := C59_index r d (.id 11) (.id id) h index
  unfold ResDir.messageTableAt ResDir.messageTable typeMessages
  refine ⟨fun hi => by rw [h1 hi]; rfl, fun ls hl hn hd l hi => by rw [h2 ls hl hn hd l hi]⟩

/-- C64: `get_translation_list` has one text for every translation, in their order, and each of them means its translation. -/
theorem C64_list (v : VerInfo) (h : ∀ x ∈ v.trans, x.1 < 65536 ∧ x.2 < 65536) : v.transList.map transIds = v.trans := by
  unfold VerInfo.transList
  rw [List.map_map]
  refine (List.map_congr_left fun x hx => ?_).trans (List.map_id _)
  exact C64_string_round_trip x (h x hx).1 (h x hx).2

/-- C66: `is_present` of the information of an entry is true exactly if the raw data of the record were there and say something that the library
    understands: PDB 7.0 or 2.0, a COFF symbol table, or a miscellaneous record; the GUID is that in the data. -/
theorem C66_present {p : Image} (hp : Readable p) {l : List DebugInfo} (h : p.getDebug = .ok l) (e : DebugInfo) (he : e ∈ l) :
    (e.adv.isPresent = true ↔ ∃ d, mapFind (rd 4 e.dir 24) p.debugData = some d ∧
      (rd 4 e.dir 12 = 1 ∨ rd 4 e.dir 12 = 4 ∨
        rd 4 e.dir 12 = 2 ∧ (slice d 0 4 = [0x52, 0x53, 0x44, 0x53] ∨ slice d 0 4 = [0x4e, 0x42, 0x31, 0x30]))) ∧
    (∀ g, e.adv.guid = some g → ∃ d, mapFind (rd 4 e.dir 24) p.debugData = some d ∧ g = slice d 4 16) := by
  have hd : match mapFind (rd 4 e.dir 24) p.debugData with
      | none => e.adv = .none
      | some d => e.adv.Describes (rd 4 e.dir 12) d := by
    rcases C66_entries hp h with ⟨_, h0⟩ | ⟨rva, size, _, _, h3, _⟩
    · subst h0; cases he
    · obtain ⟨i, hi⟩ := List.mem_iff_getElem?.mp he
      exact (h3 i e hi).1.2.2
  cases hm : mapFind (rd 4 e.dir 24) p.debugData with
  | none =>
    rw [hm] at hd
    simp only at hd
    rw [hd]
    exact ⟨⟨fun h => (by cases h), fun ⟨d, h, _⟩ => (by cases h)⟩, fun g h => (by cases h)⟩
  | some d =>
    rw [hm] at hd
    simp only at hd
    constructor
    · constructor
      · intro hpr
        refine ⟨d, rfl, ?_⟩
        cases ha : e.adv with
        | none => rw [ha] at hpr; cases hpr
        | pdb70 g a n => rw [ha] at hd; exact .inr (.inr ⟨hd.1, .inl hd.2.1⟩)
        | pdb20 g a n => rw [ha] at hd; exact .inr (.inr ⟨hd.1, .inr hd.2.1⟩)
        | misc t x => rw [ha] at hd; exact .inr (.inl hd.1)
        | coff t x => rw [ha] at hd; exact .inl hd.1
        | codeview40 => rw [ha] at hd; exact hd.elim
        | codeview50 => rw [ha] at hd; exact hd.elim
        | codeview => rw [ha] at hd; exact hd.elim
      · rintro ⟨d', hd', hc⟩
        cases hd'
        cases ha : e.adv with
        | none =>
          rw [ha] at hd
          obtain ⟨h1, h4, h2⟩ := hd
          rcases hc with hc | hc | ⟨hc, hc' | hc'⟩
          · exact absurd hc h1
          · exact absurd hc h4
          · exact absurd hc' (h2 hc).1
          · exact absurd hc' (h2 hc).2
        | pdb70 g a n => rfl
        | pdb20 g a n => rfl
        | misc t x => rfl
        | coff t x => rfl
        | codeview40 => rw [ha] at hd; exact hd.elim
        | codeview50 => rw [ha] at hd; exact hd.elim
        | codeview => rw [ha] at hd; exact hd.elim
    · intro g hg
      refine ⟨d, rfl, ?_⟩
      cases ha : e.adv with
      | pdb70 g' a n => rw [ha] at hd hg; cases hg; exact hd.2.2.1
      | none => rw [ha] at hg; cases hg
      | pdb20 _ _ _ => rw [ha] at hg; cases hg
      | misc _ _ => rw [ha] at hg; cases hg
      | coff _ _ => rw [ha] at hg; cases hg
      | codeview40 => rw [ha] at hg; cases hg
      | codeview50 => rw [ha] at hg; cases hg
      | codeview => rw [ha] at hg; cases hg

/-- Bitmaps and messages in two languages each. -/
def twoLangs : ResDir :=
  { es := [.dir (.id 2) {} [.dir (.id 7) {} [.data (.id 1031) 0 (demoBmp.drop 14), .data (.id 1033) 0 (demoBmp.drop 14)]],
      .dir (.id 11) {} [.dir (.id 1) {} [.data (.id 1031) 0 [], .data (.id 1033) 0 demoMsg]]] }

/-- The hypotheses of `C38_at`, `C40_at` and `C40_lookup` can be met. -/
example : twoLangs.getBitmapAt (.id 7) 1 = twoLangs.getBitmap (.id 7) 1033 ∧
    twoLangs.getBitmapAt (.id 7) 2 = throwE .resourceDataEntryNotFound ∧
    twoLangs.messageTableAt 1 1 = parseMessageList demoMsg := by
  refine ⟨(C38_at twoLangs _ (.id 7) rfl 1).2 _ rfl (by decide +kernel) (by decide +kernel) 1033 rfl,
    (C38_at twoLangs _ (.id 7) rfl 2).1 (by decide +kernel), ?_⟩
  rw [(C40_at twoLangs _ 1 rfl 1).2 _ rfl (by decide +kernel) (by decide +kernel) 1033 rfl]
  exact (C40_lookup twoLangs 1 1033).1 0 _ rfl

/-- The hypotheses of `C66_present` can be met (see `C66_reads_partial` for what this image has). -/
example : okAnd dbgDemo.getDebug (fun l => l.map (fun e => e.adv.isPresent) == [true, true, true] && l.map (fun e => e.adv.guid) == [some dbgGuid, none, none])
    = true := by
  decide +kernel

example : ({ strings := [], trans := [(0x409, 1200)] } : VerInfo).transList.map transIds = [(0x409, 1200)] := C64_list _ (by decide)

end PE
