/-
Helper lemmas about the load configuration directory.
-/
import Verif.Model.LoadConfig
import Verif.Lemmas.Place
import Verif.Lemmas.Header
import Verif.Props.Rva

namespace PE

theorem Kind.ptr_pow2 (k : Kind) : Pow2 k.ptr := by
  cases k
  · exact pow2_4
  · exact ⟨3, by decide, rfl⟩

theorem Kind.ptr_cases (k : Kind) : k.ptr = 4 ∨ k.ptr = 8 := by cases k <;> simp [Kind.ptr]

/-- Integers of `w` bytes one after the other. -/
def encVals (w : Nat) (vs : List Nat) : Bytes := vs.flatMap (leBytes w)

@[simp] theorem encVals_nil (w : Nat) : encVals w [] = [] := rfl
theorem encVals_cons (w v : Nat) (vs : List Nat) : encVals w (v :: vs) = leBytes w v ++ encVals w vs := rfl

theorem encVals_append (w : Nat) (a b : List Nat) : encVals w (a ++ b) = encVals w a ++ encVals w b := by
  simp [encVals]

@[simp] theorem encVals_length (w : Nat) (vs : List Nat) : (encVals w vs).length = w * vs.length := by
  induction vs with
  | nil => simp
  | cons v vs ih => rw [encVals_cons]; simp [ih, Nat.mul_add]; omega

theorem slice_encVals {w j v : Nat} {vs : List Nat} (t : Bytes) (h : vs[j]? = some v) :
    slice (encVals w vs ++ t) (w * j) w = leBytes w v := by
  induction vs generalizing j with
  | nil => simp at h
  | cons x vs ih =>
    rw [encVals_cons, List.append_assoc]
    cases j with
    | zero =>
      simp only [List.getElem?_cons_zero, Option.some.injEq] at h
      subst h
      rw [Nat.mul_zero, slice_append_here (by simp)]
    | succ j =>
      simp only [List.getElem?_cons_succ] at h
      rw [slice_append_right (by rw [leBytes_length, Nat.mul_succ]; omega)]
      rw [show w * (j + 1) - (leBytes w x).length = w * j by rw [leBytes_length, Nat.mul_succ]; omega]
      exact ih h

theorem writeVals_eq (w : Nat) (vs : List Nat) (d : Bytes) (pos : Nat) (h : pos + w * vs.length ≤ d.length)
    (h32 : d.length < 2 ^ 32) : writeVals w d pos vs = .ok (patch d pos (encVals w vs)) := by
  induction vs generalizing d pos with
  | nil => simp [writeVals, patch_nil]
  | cons v vs ih =>
    have hm : w * (v :: vs).length = w * vs.length + w := by rw [List.length_cons, Nat.mul_succ]
    have hw : pos + (leBytes w v).length ≤ d.length := by rw [leBytes_length]; omega
    have hl := patch_length hw
    unfold writeVals
    rw [writeAt_ok hw, ok_bind, w32, Nat.mod_eq_of_lt (by omega), ih _ _ (by omega) (by omega), encVals_cons]
    have := patch_patch_adjacent (b := d) (d := leBytes w v) (e := encVals w vs) (off := pos)
      (by rw [encVals_length, leBytes_length]; omega)
    rw [leBytes_length] at this
    rw [this]

theorem rvaToVa_ok {p : Image} {rva : Nat} (h : p.nt.imageBase + rva < 256 ^ p.kind.ptr) :
    p.rvaToVa rva = .ok (p.nt.imageBase + rva) := by
  cases hk : p.kind with
  | pe32 =>
    rw [hk] at h
    have h' : p.nt.imageBase + rva < 4294967296 := h
    rw [C05_rva_to_va_32 p hk (by omega), if_pos (by omega)]
  | pe64 =>
    rw [hk] at h
    exact C05_rva_to_va_64_partial p hk rva h

theorem vaToRva_ok {p : Image} {rva : Nat} (h : rva < 2 ^ 32) (hb : p.nt.imageBase + 2 ^ 32 ≤ 2 ^ 64) :
    p.vaToRva (p.nt.imageBase + rva) = .ok rva := by
  rw [C05_va_to_rva p _ (by omega) hb, if_pos (by omega)]
  congr 1; omega

theorem writeLocks_eq {p : Image} (rs : List Nat) (d : Bytes) (pos : Nat)
    (h : pos + p.kind.ptr * (rs.length + 1) ≤ d.length) (h32 : d.length < 2 ^ 32)
    (hr : ∀ r ∈ rs, p.nt.imageBase + r < 256 ^ p.kind.ptr) :
    p.writeLocks d pos rs = .ok (patch d pos (encVals p.kind.ptr (rs.map (p.nt.imageBase + ·) ++ [0]))) := by
  induction rs generalizing d pos with
  | nil =>
    unfold Image.writeLocks
    rw [writeAt_ok (by rw [leBytes_length]; simpa using h)]
    simp [encVals]
  | cons r rs ih =>
    have hm : p.kind.ptr * ((r :: rs).length + 1) = p.kind.ptr * (rs.length + 1) + p.kind.ptr := by
      rw [List.length_cons, Nat.mul_succ]
    have hw : pos + (leBytes p.kind.ptr (p.nt.imageBase + r)).length ≤ d.length := by rw [leBytes_length]; omega
    have hl := patch_length hw
    have hp : 0 < p.kind.ptr := by cases p.kind <;> decide
    have hle : p.kind.ptr ≤ p.kind.ptr * (rs.length + 1) := Nat.le_mul_of_pos_right _ (by omega)
    unfold Image.writeLocks
    rw [rvaToVa_ok (hr r (by simp)), ok_bind, writeAt_ok hw, ok_bind, w32, Nat.mod_eq_of_lt (by omega),
      ih _ _ (by omega) (by omega) (fun x hx => hr x (by simp [hx]))]
    have := patch_patch_adjacent (b := d) (d := leBytes p.kind.ptr (p.nt.imageBase + r))
      (e := encVals p.kind.ptr (rs.map (p.nt.imageBase + ·) ++ [0])) (off := pos)
      (by rw [encVals_length, leBytes_length, List.length_append, List.length_map]; simp; omega)
    rw [leBytes_length] at this
    rw [this, List.map_cons, List.cons_append, encVals_cons]

theorem seLoop_eq {q : Image} {table : Nat} (hs : List Nat) (i : Nat)
    (h : ∀ (j v : Nat), hs[j]? = some v → q.readVaInt 4 ((table + (i + j) * 4) % 256 ^ q.kind.ptr) = .ok v) :
    q.seLoop table i hs.length = .ok hs := by
  induction hs generalizing i with
  | nil => rfl
  | cons v hs ih =>
    rw [List.length_cons, Image.seLoop]
    rw [show table + i * 4 = table + (i + 0) * 4 by omega, h 0 v (by simp), ok_bind, ih (i + 1), ok_bind]
    intro j x hx
    have := h (j + 1) x (by simpa using hx)
    rwa [show i + (j + 1) = i + 1 + j by omega] at this

theorem lockLoop_eq {q : Image} {table : Nat} (rs : List Nat) (fuel cur : Nat) (hf : rs.length < fuel)
    (h : ∀ (j r : Nat), rs[j]? = some r → ∃ va,
      q.readVaInt q.kind.ptr ((table + (cur + j) * q.kind.ptr) % 256 ^ q.kind.ptr) = .ok va ∧ va ≠ 0 ∧
      q.vaToRva va = .ok r)
    (hz : q.readVaInt q.kind.ptr ((table + (cur + rs.length) * q.kind.ptr) % 256 ^ q.kind.ptr) = .ok 0) :
    q.lockLoop table fuel cur = .ok rs := by
  induction rs generalizing fuel cur with
  | nil =>
    obtain ⟨f, rfl⟩ : ∃ f, fuel = f + 1 := ⟨fuel - 1, by simp at hf; omega⟩
    rw [Image.lockLoop]
    rw [List.length_nil, Nat.add_zero] at hz
    rw [hz, ok_bind, if_pos rfl]
  | cons r rs ih =>
    obtain ⟨f, rfl⟩ : ∃ f, fuel = f + 1 := ⟨fuel - 1, by simp at hf; omega⟩
    rw [List.length_cons] at hf hz
    obtain ⟨va, h1, h2, h3⟩ := h 0 r (by simp)
    rw [Nat.add_zero] at h1
    rw [Image.lockLoop, h1, ok_bind, if_neg h2, h3, ok_bind, ih f (cur + 1) (by omega) ?_ ?_, ok_bind]
    · intro j x hx
      have := h (j + 1) x (by simpa using hx)
      rwa [show cur + (j + 1) = cur + 1 + j by omega] at this
    · rwa [show cur + 1 + rs.length = cur + (rs.length + 1) by omega]

/-- The widths of the fields. -/
def configWidths : Kind → List Nat
  | .pe32 => [4, 4, 2, 2, 4, 4, 4, 4, 4, 4, 4, 4, 4, 4, 2, 2, 4, 4, 4, 4]
  | .pe64 => [4, 4, 2, 2, 4, 4, 4, 8, 8, 8, 8, 8, 8, 4, 2, 2, 8, 8, 8, 8]

theorem configFields_widths (k : Kind) (c : ConfigInfo) : (configFields k c).map Prod.fst = configWidths k := by
  cases k <;> rfl

theorem configFields_length (k : Kind) (c : ConfigInfo) : (encFields (configFields k c)).length = k.sizeofConfig := by
  rw [encFields_length, configFields_widths]; cases k <;> decide

/-- Reading the written structure gives its fields back. -/
theorem ConfigInfo.ofBytes_enc (k : Kind) (c : ConfigInfo) (h : ∀ f ∈ configFields k c, f.2 < 256 ^ f.1) :
    ConfigInfo.ofBytes k (encFields (configFields k c)) = { c with handlers := [], locks := [] } ∧
    rd 4 (encFields (configFields k c)) 0 = k.sizeofConfig := by
  have key : ∀ {i w v off : Nat}, (configFields k c)[i]? = some (w, v) →
      ((configWidths k).take i).sum = off → rd w (encFields (configFields k c)) off = v := by
    intro i w v off h1 h2
    have := rd_enc_nth (off := off) [] h h1 (by rw [List.map_take, configFields_widths]; exact h2)
    rwa [List.append_nil] at this
  cases k
  · refine ⟨?_, key (i := 0) rfl (by decide)⟩
    unfold ConfigInfo.ofBytes
    dsimp only
    rw [key (i := 1) (w := 4) (off := 4) rfl (by decide), key (i := 2) (w := 2) (off := 8) rfl (by decide),
      key (i := 3) (w := 2) (off := 10) rfl (by decide), key (i := 4) (w := 4) (off := 12) rfl (by decide),
      key (i := 5) (w := 4) (off := 16) rfl (by decide), key (i := 6) (w := 4) (off := 20) rfl (by decide),
      key (i := 7) (w := 4) (off := 24) rfl (by decide), key (i := 8) (w := 4) (off := 28) rfl (by decide),
      key (i := 9) (w := 4) (off := 32) rfl (by decide), key (i := 10) (w := 4) (off := 36) rfl (by decide),
      key (i := 11) (w := 4) (off := 40) rfl (by decide), key (i := 12) (w := 4) (off := 44) rfl (by decide),
      key (i := 13) (w := 4) (off := 48) rfl (by decide), key (i := 14) (w := 2) (off := 52) rfl (by decide),
      key (i := 16) (w := 4) (off := 56) rfl (by decide), key (i := 17) (w := 4) (off := 60) rfl (by decide),
      key (i := 18) (w := 4) (off := 64) rfl (by decide), key (i := 19) (w := 4) (off := 68) rfl (by decide)]
  · refine ⟨?_, key (i := 0) rfl (by decide)⟩
    unfold ConfigInfo.ofBytes
    dsimp only
    rw [key (i := 1) (w := 4) (off := 4) rfl (by decide), key (i := 2) (w := 2) (off := 8) rfl (by decide),
      key (i := 3) (w := 2) (off := 10) rfl (by decide), key (i := 4) (w := 4) (off := 12) rfl (by decide),
      key (i := 5) (w := 4) (off := 16) rfl (by decide), key (i := 6) (w := 4) (off := 20) rfl (by decide),
      key (i := 7) (w := 8) (off := 24) rfl (by decide), key (i := 8) (w := 8) (off := 32) rfl (by decide),
      key (i := 9) (w := 8) (off := 40) rfl (by decide), key (i := 10) (w := 8) (off := 48) rfl (by decide),
      key (i := 11) (w := 8) (off := 56) rfl (by decide), key (i := 12) (w := 8) (off := 64) rfl (by decide),
      key (i := 13) (w := 4) (off := 72) rfl (by decide), key (i := 14) (w := 2) (off := 76) rfl (by decide),
      key (i := 16) (w := 8) (off := 80) rfl (by decide), key (i := 17) (w := 8) (off := 88) rfl (by decide),
      key (i := 18) (w := 8) (off := 96) rfl (by decide), key (i := 19) (w := 8) (off := 104) rfl (by decide)]

end PE
