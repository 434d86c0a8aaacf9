/-
Helper lemmas: "the buffer `b` became `c`, and only bytes with positions in `S` changed".
-/
import Verif.Lemmas.At
import Verif.Lemmas.Place
import Verif.Model.StrAt

namespace PE

/-- `c` has the length of `b` and the same bytes outside of `S`. -/
structure Mod (b c : Bytes) (S : Nat → Prop) : Prop where
  len : c.length = b.length
  same : ∀ i, ¬ S i → c[i]? = b[i]?

theorem Mod.refl (b : Bytes) (S : Nat → Prop) : Mod b b S := ⟨rfl, fun _ _ => rfl⟩

theorem Mod.mono {b c : Bytes} {S T : Nat → Prop} (h : Mod b c S) (hs : ∀ i, S i → T i) : Mod b c T :=
  ⟨h.len, fun i hi => h.same i (fun h' => hi (hs i h'))⟩

theorem Mod.trans {b c d : Bytes} {S T : Nat → Prop} (h : Mod b c S) (h' : Mod c d T) :
    Mod b d (fun i => S i ∨ T i) :=
  ⟨h'.len.trans h.len, fun i hi => (h'.same i (fun x => hi (Or.inr x))).trans (h.same i (fun x => hi (Or.inl x)))⟩

theorem at_ext {b x : Bytes} {o : Nat} : At b o x ↔ o + x.length ≤ b.length ∧ ∀ i, i < x.length → b[o + i]? = x[i]? := by
  unfold At
  constructor
  · rintro ⟨h1, h2⟩
    refine ⟨h1, fun i hi => ?_⟩
    have := getElem?_slice (b := b) (off := o) (n := x.length) (i := i)
    rw [h2, if_pos hi] at this
    exact this.symm
  · rintro ⟨h1, h2⟩
    refine ⟨h1, ?_⟩
    apply List.ext_getElem?
    intro i
    rw [getElem?_slice]
    split
    · next h => exact h2 i h
    · next h => exact (List.getElem?_eq_none (by omega)).symm

theorem Mod.at {b c x : Bytes} {S : Nat → Prop} {o : Nat} (h : Mod b c S) (ha : At b o x)
    (hs : ∀ i, o ≤ i → i < o + x.length → ¬ S i) : At c o x := by
  rw [at_ext] at ha ⊢
  refine ⟨by rw [h.len]; exact ha.1, fun i hi => ?_⟩
  rw [h.same _ (hs _ (by omega) (by omega))]
  exact ha.2 i hi

/-- One write. -/
theorem writeAt_mod {b x : Bytes} {o : Nat} (h : o + x.length ≤ b.length) :
    ∃ c, writeAt b o x = .ok c ∧ At c o x ∧ Mod b c (fun i => o ≤ i ∧ i < o + x.length) := by
  refine ⟨_, writeAt_ok h, at_patch h, patch_length h, fun i hi => ?_⟩
  rw [getElem?_patchAt h]
  split
  · rfl
  · split
    · omega
    · rfl

/-- All changes within one range are one patch. -/
theorem Mod.patch {b c : Bytes} {S : Nat → Prop} {lo n : Nat} (h : Mod b c S) (hs : ∀ i, S i → lo ≤ i ∧ i < lo + n)
    (hl : lo + n ≤ b.length) : c = PE.patch b lo (slice c lo n) := by
  have hc := h.len
  have hsl : (slice c lo n).length = n := slice_length_of_le (by omega)
  apply List.ext_getElem?
  intro i
  rw [getElem?_patchAt (by omega), hsl]
  by_cases h1 : i < lo
  · rw [if_pos h1, h.same i (fun hi => by have := hs i hi; omega)]
  · rw [if_neg h1]
    by_cases h2 : i < lo + n
    · rw [if_pos h2, getElem?_slice, if_pos (by omega)]
      congr 1; omega
    · rw [if_neg h2, h.same i (fun hi => by have := hs i hi; omega)]

/-- Reading an integer that stands in the window. -/
theorem Window.readInt_at {p : Image} {va : Nat} {m : Bytes} {s : Sec} (h : Window p va m s) (hdrs : Bool) {o n v : Nat}
    (ha : At m o (leBytes n v)) (hn : 0 < n) (hv : v < 256 ^ n) : p.readInt n (va + o) .virt hdrs = .ok v := by
  have := ha.1
  rw [leBytes_length] at this
  rw [h.readInt hdrs (by omega) this, ha.rd, Nat.mod_eq_of_lt hv]

/-- Reading a string that stands in the window. -/
theorem Window.strAt {p : Image} {va : Nat} {m : Bytes} {s : Sec} (h : Window p va m s) {o : Nat} {x : Bytes}
    (ha : At m o (x ++ [0])) (h2 : o + 2 ≤ m.length) (hx : ∀ c ∈ x, c ≠ 0) (e : Err) : p.strAt e (va + o) = .ok x := by
  have hl := ha.1
  simp only [List.length_append, List.length_singleton] at hl
  unfold Image.strAt
  rw [h.len true o (by omega), ok_bind, throwIf_neg (by omega), ok_bind, h.ptr true o (by omega), ok_bind]
  dsimp only
  have hn : isNullTerminated (m.drop o) (m.length - o) = .ok true := by
    unfold isNullTerminated
    rw [if_pos]
    rw [hasNul_iff, ha.split, List.append_assoc,
      show m.length - o = x.length + (m.length - o - x.length - 1 + 1) by omega, List.take_length_add_append]
    simp
  rw [hn, ok_bind, throwIf_neg (by simp), ok_bind, ha.readCStr hx]

end PE
