/-
Helper lemmas: storing a directory entry and reading it back.
-/
import Verif.Props.Directories
namespace PE

theorem setDir_rva {h : NtHdr} (ho : h.DirsOk) {id : Nat} (hid : id < h.numRva) (v : Nat) :
    h.setDirRva id v = .ok { h with dirs := h.dirs.set id (v, (h.dirs[id]?.getD (0, 0)).2) } := by
  have h1 := ho.slots
  have h2 := ho.count
  unfold NtHdr.setDirRva
  rw [if_neg (by omega), NtHdr.dirAt_ok (by omega), ok_bind]
  unfold NtHdr.dirSet
  rw [if_pos (by omega)]
  simp [List.getElem?_eq_getElem (show id < h.dirs.length by omega)]

theorem setDir_size {h : NtHdr} (ho : h.DirsOk) {id : Nat} (hid : id < h.numRva) (v : Nat) :
    h.setDirSize id v = .ok { h with dirs := h.dirs.set id ((h.dirs[id]?.getD (0, 0)).1, v) } := by
  have h1 := ho.slots
  have h2 := ho.count
  unfold NtHdr.setDirSize
  rw [if_neg (by omega), NtHdr.dirAt_ok (by omega), ok_bind]
  unfold NtHdr.dirSet
  rw [if_pos (by omega)]
  simp [List.getElem?_eq_getElem (show id < h.dirs.length by omega)]

theorem DirsOk.set {h : NtHdr} (ho : h.DirsOk) (id : Nat) (d : Nat × Nat) :
    ({ h with dirs := h.dirs.set id d } : NtHdr).DirsOk := ⟨by simpa using ho.slots, ho.count⟩

/-- `set_directory_rva` followed by `set_directory_size`. -/
theorem setDir_both {h : NtHdr} (ho : h.DirsOk) {id : Nat} (hid : id < h.numRva) (a b : Nat) :
    (do let nt ← h.setDirRva id a; nt.setDirSize id b) = .ok { h with dirs := h.dirs.set id (a, b) } := by
  have h1 := ho.slots
  have h2 := ho.count
  rw [setDir_rva ho hid, ok_bind, setDir_size (DirsOk.set ho _ _) hid]
  simp [List.set_set, List.getElem?_set_self (show id < h.dirs.length by omega)]

theorem getDir_stored {h : NtHdr} (ho : h.DirsOk) {id : Nat} (hid : id < h.numRva) {d : Nat × Nat}
    (hd : h.dirs[id]? = some d) :
    h.getDirRva id = .ok d.1 ∧ h.getDirSize id = .ok d.2 ∧ h.directoryExists id = .ok (decide (d.1 ≠ 0)) := by
  have h1 := ho.slots
  have h2 := ho.count
  have hat : h.dirAt id = .ok d := by simp [NtHdr.dirAt, hd]
  refine ⟨?_, ?_, ?_⟩
  · unfold NtHdr.getDirRva; rw [if_neg (by omega), hat]; rfl
  · unfold NtHdr.getDirSize; rw [if_neg (by omega), hat]; rfl
  · rw [NtHdr.directoryExists_eq ho (by omega), hd]
    simp [hid]

end PE
