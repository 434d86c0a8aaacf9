/-
Helper lemmas about address based access.
-/
import Verif.Model.Rva
import Verif.Spec.Layout
import Verif.Lemmas.Align
import Verif.Lemmas.Basic
namespace PE

theorem Sec.alignedVS_eq {s : Sec} {a : Nat} (ha : Pow2 a) (h : s.Fits a) : s.alignedVS a = s.span a := by
  have hf := h.fin
  have h1 := h.vsize
  have h2 := h.rawSize
  unfold Sec.alignedVS
  unfold Sec.span at hf ⊢
  by_cases hv : s.vsize = 0
  · simp only [hv, if_true, and_true] at hf ⊢
    by_cases hr : s.rawSize = 0
    · simp only [hr, ne_eq, not_true_eq_false, if_false]
      rw [alignUp_zero ha, ceilTo_zero]
    · rw [if_pos hr]
      exact alignUp_of_le ha h2 (by omega)
  · simp only [hv, and_false, if_false] at hf ⊢
    exact alignUp_of_le ha h1 (by omega)

theorem Sec.containsRva_iff {s : Sec} {a : Nat} (ha : Pow2 a) (h : s.Fits a) (rva : Nat) :
    s.containsRva a rva = true ↔ s.Covers a rva := by
  have hf := h.fin
  unfold Sec.containsRva Sec.Covers
  rw [Sec.alignedVS_eq ha h, w32, Nat.mod_eq_of_lt hf]
  simp

theorem Sec.containsRva_le {s : Sec} {a rva : Nat} (h : s.containsRva a rva = true) :
    s.va ≤ rva ∧ rva < s.va + s.alignedVS a := by
  unfold Sec.containsRva w32 at h
  simp only [Bool.and_eq_true, decide_eq_true_eq] at h
  have := Nat.mod_le (s.va + s.alignedVS a) 4294967296
  omega

theorem Sec.virt_eq_memory {s : Sec} {a : Nat} (ha : Pow2 a) (h : s.Fits a) : s.virt a = s.memory a := by
  unfold Sec.virt Sec.memory zeros
  rw [Sec.alignedVS_eq ha h]

theorem find?_congr_mem {α : Type} {l : List α} {f g : α → Bool} (h : ∀ x ∈ l, f x = g x) :
    l.find? f = l.find? g := by
  induction l with
  | nil => rfl
  | cons a l ih =>
    simp only [List.find?_cons, h a (by simp)]
    rw [ih (fun x hx => h x (by simp [hx]))]

theorem find?_split {α : Type} {l : List α} {f : α → Bool} {a : α} :
    l.find? f = some a ↔ f a = true ∧ ∃ pre post, l = pre ++ a :: post ∧ ∀ x ∈ pre, f x = false := by
  rw [List.find?_eq_some_iff_append]; simp

theorem sectionFromRva_ok_iff {p : Image} {rva : Nat} {s : Sec} :
    p.sectionFromRva rva = .ok s ↔
      p.secs.find? (fun s => s.containsRva p.nt.secAlign rva) = some s := by
  unfold Image.sectionFromRva
  cases p.secs.find? (fun s => s.containsRva p.nt.secAlign rva) <;> simp

theorem sectionFromRva_noUB (p : Image) (rva : Nat) : NoUB (p.sectionFromRva rva) := by
  unfold Image.sectionFromRva
  split
  · exact NoUB.ok _
  · exact NoUB.throwE _

theorem sectionFromRva_mem {p : Image} {rva : Nat} {s : Sec} (h : p.sectionFromRva rva = .ok s) :
    s ∈ p.secs ∧ s.containsRva p.nt.secAlign rva = true := by
  rw [sectionFromRva_ok_iff] at h
  exact ⟨List.mem_of_find?_eq_some h, by simpa using List.find?_some h⟩

theorem sub32_of_le {a b : Nat} (h : b ≤ a) (ha : a < 4294967296) : sub32 a b = a - b := by
  unfold sub32; omega

/-- The template read with all its checks never leaves a buffer. -/
theorem readT_noUB (p : Image) (n rva : Nat) (t : DataType) (hdrs : Bool) :
    NoUB (p.readT n rva t hdrs) := by
  unfold Image.readT
  split
  · next h =>
    rw [readN_ok (by omega)]
    exact NoUB.ok _
  · refine NoUB.bind (sectionFromRva_noUB p rva) (fun s _ => ?_)
    dsimp only
    split
    · exact NoUB.throwE _
    · next h =>
      rw [readN_ok (by omega)]
      exact NoUB.ok _

theorem readT_length {p : Image} {n rva : Nat} {t : DataType} {hdrs : Bool} {b : Bytes}
    (h : p.readT n rva t hdrs = .ok b) : b.length = n := by
  unfold Image.readT at h
  split at h
  · next hc =>
    rw [readN_ok (by omega)] at h
    cases h
    exact slice_length_of_le (by omega)
  · obtain ⟨s, _, h⟩ := bind_ok_iff.mp h
    dsimp only at h
    split at h
    · simp at h
    · next hc =>
      rw [readN_ok (by omega)] at h
      cases h
      exact slice_length_of_le (by omega)

theorem readInt_noUB (p : Image) (n rva : Nat) (t : DataType) (hdrs : Bool) :
    NoUB (p.readInt n rva t hdrs) :=
  NoUB.bind (readT_noUB p n rva t hdrs) (fun _ _ => NoUB.ok _)

theorem readInt_lt {p : Image} {n rva : Nat} {t : DataType} {hdrs : Bool} {v : Nat}
    (h : p.readInt n rva t hdrs = .ok v) : v < 256 ^ n := by
  obtain ⟨b, hb, h⟩ := bind_ok_iff.mp h
  cases h
  have := fromLE_lt b
  rwa [readT_length hb] at this

end PE
