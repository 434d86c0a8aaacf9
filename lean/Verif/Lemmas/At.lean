/-
Helper lemmas: "the bytes `x` stand at offset `o` of the buffer `b`".
-/
import Verif.Model.CStr
import Verif.Lemmas.Basic
import Verif.Lemmas.LoadConfig

namespace PE

/-- The bytes `x` stand at offset `o` of `b`. -/
def At (b : Bytes) (o : Nat) (x : Bytes) : Prop := o + x.length ≤ b.length ∧ slice b o x.length = x

theorem At.le {b x : Bytes} {o : Nat} (h : At b o x) : o + x.length ≤ b.length := h.1

theorem At.append {b x y : Bytes} {o : Nat} (h : At b o (x ++ y)) : At b o x ∧ At b (o + x.length) y := by
  obtain ⟨h1, h2⟩ := h
  rw [List.length_append] at h1 h2
  rw [slice_add] at h2
  have hl : (slice b o x.length).length = x.length := slice_length_of_le (by omega)
  obtain ⟨h3, h4⟩ := List.append_inj h2 hl
  exact ⟨⟨by omega, h3⟩, ⟨by omega, h4⟩⟩

theorem At.left {b x y : Bytes} {o : Nat} (h : At b o (x ++ y)) : At b o x := h.append.1
theorem At.right {b x y : Bytes} {o n : Nat} (h : At b o (x ++ y)) (hn : n = o + x.length) : At b n y := by
  rw [hn]; exact h.append.2

theorem at_append {b x y : Bytes} {o : Nat} (h1 : At b o x) (h2 : At b (o + x.length) y) : At b o (x ++ y) := by
  have := h2.1
  refine ⟨by rw [List.length_append]; omega, ?_⟩
  rw [List.length_append, slice_add, h1.2, h2.2]

theorem at_self (b : Bytes) : At b 0 b := ⟨by simp, by simp⟩

/-- Part of a part. -/
theorem At.trans {b x y : Bytes} {o o' : Nat} (h : At b o x) (h' : At x o' y) : At b (o + o') y := by
  have h1 := h.1
  have h2 := h'.1
  refine ⟨by omega, ?_⟩
  have := slice_slice (b := b) (o1 := o) (n1 := x.length) (o2 := o') (n2 := y.length) (by omega)
  rw [h.2, h'.2] at this
  exact this.symm

theorem At.more {b x : Bytes} {o : Nat} (h : At b o x) (c : Bytes) : At (b ++ c) o x :=
  ⟨by have := h.1; rw [List.length_append]; omega, by rw [slice_append_left h.1]; exact h.2⟩

theorem At.drop {b x : Bytes} {o k : Nat} (h : At b (k + o) x) : At (b.drop k) o x := by
  have := h.1
  refine ⟨by rw [List.length_drop]; omega, ?_⟩
  have h2 := h.2
  unfold slice at h2 ⊢
  rw [List.drop_drop]
  exact h2

theorem At.rd {b : Bytes} {o w v : Nat} (h : At b o (leBytes w v)) : rd w b o = v % 256 ^ w := by
  have := h.2
  rw [leBytes_length] at this
  rw [PE.rd, this, fromLE_leBytes]

theorem At.readU {b : Bytes} {o w v : Nat} (h : At b o (leBytes w v)) (hv : v < 256 ^ w) : readU w b o = .ok v := by
  have hl := h.1
  rw [leBytes_length] at hl
  rw [readU_ok hl, h.rd, Nat.mod_eq_of_lt hv]

theorem at_readN {b x : Bytes} {o : Nat} (h : At b o x) : readN b o x.length = .ok x := by
  rw [readN_ok h.1, h.2]

theorem at_patch {b x : Bytes} {o : Nat} (h : o + x.length ≤ b.length) : At (patch b o x) o x :=
  ⟨by rw [patch_length h]; exact h, slice_patch_same h⟩

theorem At.patch {b x d : Bytes} {o off : Nat} (h : At b o x) (hd : off + d.length ≤ b.length)
    (hdis : o + x.length ≤ off ∨ off + d.length ≤ o) : At (patch b off d) o x :=
  ⟨by rw [patch_length hd]; exact h.1, by rw [slice_patch_disjoint hd hdis]; exact h.2⟩

theorem At.split {b x : Bytes} {o : Nat} (h : At b o x) : b.drop o = x ++ b.drop (o + x.length) := by
  have := h.2
  unfold slice at this
  calc b.drop o = (b.drop o).take x.length ++ (b.drop o).drop x.length := (List.take_append_drop _ _).symm
    _ = _ := by rw [this, List.drop_drop]

/-- A zero terminated string is read back. -/
theorem At.readCStr {b s : Bytes} {o : Nat} (h : At b o (s ++ [0])) (hs : ∀ x ∈ s, x ≠ 0) : readCStr b o = .ok s := by
  unfold PE.readCStr
  rw [h.split]
  have : s ++ [0] ++ b.drop (o + (s ++ [(0 : UInt8)]).length) = s ++ 0 :: b.drop (o + (s ++ [(0 : UInt8)]).length) := by simp
  rw [this, if_pos (by rw [hasNul_iff]; simp), cstr_append_zero hs]

theorem At.checkedCStr {b s : Bytes} {o len : Nat} (e : Err) (h : At b o (s ++ [0])) (hs : ∀ x ∈ s, x ≠ 0)
    (hl : o + s.length + 1 ≤ len) : checkedCStr b len o e = .ok s := by
  unfold PE.checkedCStr
  rw [throwIf_neg (by omega), ok_bind]
  have hn : isNullTerminated (b.drop o) (len - o) = .ok true := by
    unfold isNullTerminated
    rw [if_pos]
    rw [hasNul_iff, h.split, List.append_assoc]
    rw [show len - o = s.length + (len - o - s.length - 1 + 1) by omega, List.take_length_add_append]
    simp
  rw [hn, ok_bind, throwIf_neg (by simp), ok_bind, h.readCStr hs]

/-- With a length inside the buffer the checks make the read of the string safe. -/
theorem checkedCStr_noUB {b : Bytes} {len : Nat} (h : len ≤ b.length) (o : Nat) (e : Err) : NoUB (checkedCStr b len o e) := by
  unfold checkedCStr
  refine NoUB.bind (NoUB.throwIf _ _) (fun _ h1 => ?_)
  rw [throwIf_ok_iff] at h1
  refine NoUB.bind ?_ (fun t ht => NoUB.bind (NoUB.throwIf _ _) (fun _ h2 => ?_))
  · unfold isNullTerminated
    split
    · exact NoUB.ok _
    · rw [if_pos (by rw [List.length_drop]; omega)]; exact NoUB.ok _
  · rw [throwIf_ok_iff] at h2
    unfold isNullTerminated at ht
    split at ht
    · next hc =>
      unfold readCStr
      rw [hasNul_iff] at hc
      rw [if_pos (hasNul_iff.mpr (List.mem_of_mem_take hc))]
      exact NoUB.ok _
    · split at ht
      · exact absurd (Except.ok.inj ht).symm h2
      · simp at ht

theorem getElem?_patchAt {b d : Bytes} {off : Nat} (h : off + d.length ≤ b.length) (i : Nat) :
    (patch b off d)[i]? = if i < off then b[i]? else if i < off + d.length then d[i - off]? else b[i]? := by
  have ht : (b.take off).length = off := by rw [List.length_take]; omega
  unfold PE.patch
  by_cases h1 : i < off
  · rw [if_pos h1, List.append_assoc, List.getElem?_append_left (by omega), List.getElem?_take_of_lt h1]
  · rw [if_neg h1, List.append_assoc, List.getElem?_append_right (by omega), ht]
    by_cases h2 : i < off + d.length
    · rw [if_pos h2, List.getElem?_append_left (by omega)]
    · rw [if_neg h2, List.getElem?_append_right (by omega), List.getElem?_drop]
      congr 1; omega

theorem getElem?_slice {b : Bytes} {off n i : Nat} : (slice b off n)[i]? = if i < n then b[off + i]? else none := by
  unfold slice
  rw [List.getElem?_take, List.getElem?_drop]

theorem patch_swap {b d e : Bytes} {o1 o2 : Nat} (h1 : o1 + d.length ≤ b.length) (h2 : o2 + e.length ≤ b.length)
    (hd : o1 + d.length ≤ o2 ∨ o2 + e.length ≤ o1) : patch (patch b o1 d) o2 e = patch (patch b o2 e) o1 d := by
  apply List.ext_getElem?
  intro i
  rw [getElem?_patchAt (off := o2) (by rw [patch_length h1]; exact h2),
    getElem?_patchAt (b := patch b o2 e) (by rw [patch_length h2]; exact h1), getElem?_patchAt h1, getElem?_patchAt h2]
  split <;> split <;> (try split) <;> (try split) <;> first | rfl | omega

/-- Two patches with a gap between them are one patch that repeats the bytes of the gap. -/
theorem patch_gap {b d e : Bytes} {o g : Nat} (h : o + d.length + g + e.length ≤ b.length) :
    patch (patch b o d) (o + d.length + g) e = patch b o (d ++ (slice b (o + d.length) g ++ e)) := by
  have hl : (slice b (o + d.length) g).length = g := slice_length_of_le (by omega)
  apply List.ext_getElem?
  intro i
  rw [getElem?_patchAt (by rw [patch_length (by omega)]; omega), getElem?_patchAt (by omega),
    getElem?_patchAt (by simp only [List.length_append, hl]; omega)]
  simp only [List.length_append, hl]
  by_cases h1 : i < o
  · rw [if_pos (by omega), if_pos h1, if_pos h1]
  · rw [if_neg h1, if_neg h1]
    by_cases h2 : i < o + d.length
    · rw [if_pos (by omega), if_pos (by omega), if_pos (by omega), List.getElem?_append_left (by omega)]
    · rw [if_neg h2]
      by_cases h3 : i < o + d.length + g
      · rw [if_pos h3, if_pos (by omega), List.getElem?_append_right (by omega),
          List.getElem?_append_left (by omega), getElem?_slice, if_pos (by omega)]
        congr 1; omega
      · rw [if_neg h3]
        by_cases h4 : i < o + d.length + g + e.length
        · rw [if_pos h4, if_pos (by omega), List.getElem?_append_right (by omega),
            List.getElem?_append_right (by omega), hl]
          congr 1; omega
        · rw [if_neg h4, if_neg (by omega)]

end PE
