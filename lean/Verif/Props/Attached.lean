/-
C92: sections that do not belong to the image.
-/
import Verif.Props.History
namespace PE

/-- C92: the attached sections are those of the list. -/
theorem C92_attached_iff (p : Image) (i : Nat) : p.sectionAttached i = true ↔ ∃ s, p.secs[i]? = some s := by
  unfold Image.sectionAttached
  rw [decide_eq_true_eq]
  exact ⟨fun h => ⟨_, List.getElem?_eq_getElem h⟩, fun ⟨s, h⟩ => (List.getElem?_eq_some_iff.mp h).1⟩

theorem not_attached {p : Image} {i : Nat} (h : p.sectionAttached i = false) : p.secs[i]? = none := by
  cases e : p.secs[i]? with
  | none => rfl
  | some s => rw [(C92_attached_iff p i).mpr ⟨s, e⟩] at h; cases h

theorem refuse {p : Image} {i : Nat} (h : p.sectionAttached i = false) {g : Image → Sec → IM (Nat × Nat)} :
    (do
      let p ← IM.image
      match p.secs[i]? with
      | none => IM.lift (throwE .sectionIsNotAttached)
      | some s => g p s : IM (Nat × Nat)) p = (throwE .sectionIsNotAttached, p) := by
  show IM.andThen IM.image _ p = _
  unfold IM.andThen IM.image
  dsimp only
  rw [not_attached h]
  rfl

/-- C92: every rebuilder refuses a section that does not belong to the image with the exception "section is not attached" and leaves
    the image alone, whatever the other arguments are. -/
theorem C92_refused (p : Image) (i : Nat) (h : p.sectionAttached i = false) :
    (∀ info l off save strip, rebuildExportsM info l i off save strip p = (throwE .sectionIsNotAttached, p)) ∧
    (∀ l off save strip, rebuildBoundM l i off save strip p = (throwE .sectionIsNotAttached, p)) ∧
    (∀ r off save strip, rebuildResourcesM r i off save strip p = (throwE .sectionIsNotAttached, p)) ∧
    (∀ l off save strip, rebuildRelocationsM l i off save strip p = (throwE .sectionIsNotAttached, p)) ∧
    (∀ c off wse wlock save strip, rebuildConfigM c i off wse wlock save strip p = (throwE .sectionIsNotAttached, p)) ∧
    (∀ t off wcb wdata e save strip, rebuildTlsM t i off wcb wdata e save strip p = (throwE .sectionIsNotAttached, p)) ∧
    (∀ ls c off save zeroIat strip, rebuildImportsM ls i c off save zeroIat strip p = (throwE .sectionIsNotAttached, p)) :=
  ⟨fun _ _ _ _ _ => refuse h, fun _ _ _ _ => refuse h, fun _ _ _ _ => refuse h, fun _ _ _ _ => refuse h, fun _ _ _ _ _ _ => refuse h,
    fun _ _ _ _ _ _ _ => refuse h, fun _ _ _ _ _ _ => refuse h⟩

/-- C92: a section that is attached stays attached, as long as the program does not write the list by hand. -/
theorem C92_stays {p q : Image} (ho : Origin p) (hq : History (fun c => c.Legal ∧ ¬ c.ByHand) p q) (i : Nat)
    (h : p.sectionAttached i = true) : q.sectionAttached i = true := by
  obtain ⟨s, hs⟩ := (C92_attached_iff p i).mp h
  obtain ⟨t, ht, -⟩ := (C91_sections ho hq).kept i s hs
  exact (C92_attached_iff q i).mpr ⟨t, ht⟩

/-- C92: `add_section` attaches the new section, and no other. -/
theorem C92_added (p : Image) (s : Sec) (b : Bool) (h : (addSectionM s b p).1 = .ok ()) (i : Nat) :
    (addSectionM s b p).2.sectionAttached i = true ↔ p.sectionAttached i = true ∨ i = p.secs.length := by
  have hl : (addSectionM s b p).2.secs.length = p.secs.length + 1 := by
    revert h
    unfold addSectionM
    show (IM.andThen IM.image _ p).1 = _ → (IM.andThen IM.image _ p).2.secs.length = _
    unfold IM.andThen IM.image
    dsimp only
    by_cases hc : p.secs.length ≥ 96
    · rw [show throwIf (p.secs.length ≥ 96) .noMoreSectionsCanBeAdded = throwE .noMoreSectionsCanBeAdded from if_pos hc]
      intro h; cases h
    · rw [show throwIf (p.secs.length ≥ 96) .noMoreSectionsCanBeAdded = .ok () from if_neg hc]
      rcases prepareSection p.nt.fileAlign p.nt.secAlign s with e | t
      · intro h; cases h
      · intro _
        obtain ⟨l, hl, hs⟩ := roundLast_step p b
        show ((p.roundLast b).secs ++ [{ t with va := p.newSectionVa t }]).length = _
        rw [hl, List.length_append, hs.len]
        rfl
  unfold Image.sectionAttached
  rw [hl, decide_eq_true_eq, decide_eq_true_eq]
  omega

example : ∃ p : Image, p.sectionAttached 1 = true ∧ p.sectionAttached 2 = false ∧ Origin (createImage .pe32 0x1000 true 2) ∧
    History (fun c => c.Legal ∧ ¬ c.ByHand) (createImage .pe32 0x1000 true 2) p := by
  refine ⟨runCalls exCalls (createImage .pe32 0x1000 true 2), by decide +kernel, by decide +kernel, .created _ _ _ _ rfl,
    history_run _ _ .start ?_ (by decide +kernel)⟩
  intro c hc
  simp only [exCalls, List.mem_cons, List.not_mem_nil, or_false] at hc
  rcases hc with rfl | rfl | rfl | rfl | rfl | rfl | rfl <;> exact ⟨trivial, id⟩

end PE
