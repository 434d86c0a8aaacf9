/-
Helper lemmas for the checksum.
-/
import Verif.Model.Checksum
import Verif.Spec.Checksum
import Verif.Lemmas.Basic
namespace PE

/-- Sum of the double words of `bs` (the first one being at file position `i`), without the one at `pos`. -/
def dsum (pos : Int) (i : Nat) (bs : Bytes) : Nat :=
  if h : bs = [] then 0
  else (if (i : Int) = pos then 0 else fromLE (bs.take 4)) + dsum pos (i + 4) (bs.drop 4)
termination_by bs.length
decreasing_by
  have := List.length_pos_iff.mpr h
  simp; omega

theorem fromLE_take4_lt (bs : Bytes) : fromLE (bs.take 4) < 4294967296 := by
  refine Nat.lt_of_lt_of_le (fromLE_lt _) ?_
  refine Nat.le_trans (Nat.pow_le_pow_right (by decide) (List.length_take_le 4 bs)) (by decide)

theorem csStep_spec {c dw : Nat} (hc : c ≤ 4294967296) (hd : dw < 4294967296) :
    csStep c dw ≤ 4294967296 ∧ csStep c dw % 65535 = (c + dw) % 65535 ∧ (csStep c dw = 0 ↔ c = 0 ∧ dw = 0) := by
  unfold csStep
  dsimp only
  split <;> omega

theorem bytes_length_induction {P : Bytes → Prop} (ih : ∀ b : Bytes, (∀ c : Bytes, c.length < b.length → P c) → P b) :
    ∀ b, P b := by
  intro b
  generalize hn : b.length = n
  induction n using Nat.strongRecOn generalizing b with
  | _ n IH => exact ih b (fun c hc => IH c.length (by omega) c rfl)

theorem csLoop_spec (pos : Int) (i : Nat) (bs : Bytes) (c : Nat) (hc : c ≤ 4294967296) :
    csLoop pos i bs c ≤ 4294967296 ∧ csLoop pos i bs c % 65535 = (c + dsum pos i bs) % 65535 ∧
      (csLoop pos i bs c = 0 ↔ c = 0 ∧ dsum pos i bs = 0) := by
  induction bs using bytes_length_induction generalizing i c with
  | _ bs ih =>
    unfold csLoop dsum
    by_cases h : bs = []
    · simp [h, hc]
    · rw [dif_neg h, dif_neg h]
      have hlen : (bs.drop 4).length < bs.length := by
        have := List.length_pos_iff.mpr h
        simp; omega
      have hd := fromLE_take4_lt bs
      dsimp only
      split
      · have := ih _ hlen (i + 4) c hc
        simpa using this
      · have hs := csStep_spec hc hd
        have := ih _ hlen (i + 4) _ hs.1
        omega

theorem csFinish_spec {c : Nat} (hc : c ≤ 4294967296) :
    csFinish c < 65536 ∧ csFinish c % 65535 = c % 65535 ∧ (csFinish c = 0 ↔ c = 0) := by
  unfold csFinish
  dsimp only
  by_cases h : c = 4294967296
  · subst h; decide
  · have h1 : c % 65536 + c / 65536 ≤ 131070 := by omega
    have h2 : (c % 65536 + c / 65536) % 65535 = c % 65535 := by omega
    have h3 : c % 65536 + c / 65536 = 0 ↔ c = 0 := by omega
    generalize c % 65536 + c / 65536 = x at h1 h2 h3 ⊢
    by_cases hx : x < 65536
    · have : x / 65536 = 0 := by omega
      rw [this]; omega
    · have : x / 65536 = 1 := by omega
      rw [this]; omega

/-! ### Double words and words -/

theorem wordSum_chunk (bs : Bytes) :
    wordSum bs % 65535 = (fromLE (bs.take 4) + wordSum (bs.drop 4)) % 65535 := by
  match bs with
  | [] => simp [wordSum, fromLE]
  | [a] => simp [wordSum, fromLE]
  | [a, b] => simp [wordSum, fromLE]
  | [a, b, c] => simp [wordSum, fromLE]; omega
  | a :: b :: c :: d :: t => simp [wordSum, fromLE]; omega

theorem wordSum_zero_chunk (bs : Bytes) :
    wordSum bs = 0 ↔ fromLE (bs.take 4) = 0 ∧ wordSum (bs.drop 4) = 0 := by
  match bs with
  | [] => simp [wordSum, fromLE]
  | [a] => simp [wordSum, fromLE]
  | [a, b] => simp [wordSum, fromLE]
  | [a, b, c] => simp [wordSum, fromLE]; omega
  | a :: b :: c :: d :: t => simp [wordSum, fromLE]; omega

/-- Nothing skipped: the position is not one of the visited ones. -/
theorem dsum_none (pos : Int) (i : Nat) (bs : Bytes) (h : pos < i ∨ (pos - i) % 4 ≠ 0) :
    dsum pos i bs % 65535 = wordSum bs % 65535 ∧ (dsum pos i bs = 0 ↔ wordSum bs = 0) := by
  induction bs using bytes_length_induction generalizing i with
  | _ bs ih =>
    unfold dsum
    by_cases hb : bs = []
    · simp [hb, wordSum]
    · rw [dif_neg hb, if_neg (by omega)]
      have hlen : (bs.drop 4).length < bs.length := by
        have := List.length_pos_iff.mpr hb
        simp; omega
      have h1 := ih _ hlen (i + 4) (by omega)
      have h2 := wordSum_chunk bs
      have h3 := wordSum_zero_chunk bs
      omega

theorem zeroField_zero (bs : Bytes) : wordSum (zeroField bs 0) % 65535 = wordSum (bs.drop 4) % 65535 ∧
    (wordSum (zeroField bs 0) = 0 ↔ wordSum (bs.drop 4) = 0) := by
  match bs with
  | [] => simp [zeroField, wordSum]
  | [a] => simp [zeroField, wordSum]
  | [a, b] => simp [zeroField, wordSum, List.replicate]
  | [a, b, c] => simp [zeroField, wordSum, List.replicate]
  | a :: b :: c :: d :: t =>
    have : zeroField (a :: b :: c :: d :: t) 0 = 0 :: 0 :: 0 :: 0 :: t := by
      simp [zeroField, List.replicate]
    rw [this]; simp [wordSum]

theorem zeroField_step (bs : Bytes) (k : Nat) :
    (zeroField bs (k + 4)).take 4 = bs.take 4 ∧ (zeroField bs (k + 4)).drop 4 = zeroField (bs.drop 4) k := by
  match bs with
  | [] => simp [zeroField]
  | [a] => simp [zeroField]
  | [a, b] => simp [zeroField]
  | [a, b, c] => simp [zeroField]
  | a :: b :: c :: d :: t =>
    simp [zeroField]

theorem dsum_field (n : Nat) (i : Nat) (bs : Bytes) :
    dsum ((i + 4 * n : Nat) : Int) i bs % 65535 = wordSum (zeroField bs (4 * n)) % 65535 ∧
    (dsum ((i + 4 * n : Nat) : Int) i bs = 0 ↔ wordSum (zeroField bs (4 * n)) = 0) := by
  induction n generalizing i bs with
  | zero =>
    unfold dsum
    by_cases hb : bs = []
    · simp [hb, zeroField, wordSum]
    · rw [dif_neg hb, if_pos (by simp)]
      have h1 := dsum_none ((i + 4 * 0 : Nat) : Int) (i + 4) (bs.drop 4) (by omega)
      have h2 := zeroField_zero bs
      simp only [Nat.zero_add]
      simp only [Nat.mul_zero] at h1 ⊢
      omega
  | succ n ih =>
    unfold dsum
    by_cases hb : bs = []
    · simp [hb, zeroField, wordSum]
    · rw [dif_neg hb, if_neg (by omega)]
      have h1 := ih (i + 4) (bs.drop 4)
      have e : i + 4 + 4 * n = i + 4 * (n + 1) := by omega
      rw [e] at h1
      have h2 := wordSum_chunk (zeroField bs (4 * (n + 1)))
      have h3 := wordSum_zero_chunk (zeroField bs (4 * (n + 1)))
      have hz := zeroField_step bs (4 * n)
      rw [show 4 * (n + 1) = 4 * n + 4 by omega] at h2 h3 ⊢
      rw [hz.1, hz.2] at h2 h3
      rw [show 4 * (n + 1) = 4 * n + 4 by omega] at h1
      omega

/-- Appending after complete double words. -/
theorem dsum_append (pos : Int) (n i : Nat) (a b : Bytes) (h : a.length = 4 * n) :
    dsum pos i (a ++ b) = dsum pos i a + dsum pos (i + 4 * n) b := by
  induction n generalizing a i with
  | zero =>
    have : a = [] := List.length_eq_zero_iff.mp (by omega)
    subst this
    have : dsum pos i [] = 0 := by unfold dsum; simp
    simp [this]
  | succ n ih =>
    have ha : a ≠ [] := by intro h'; simp [h'] at h
    have hab : a ++ b ≠ [] := by simp [ha]
    rw [dsum, dif_neg hab]
    conv => rhs; rw [dsum, dif_neg ha]
    rw [List.take_append_of_le_length (by omega), List.drop_append_of_le_length (by omega),
      ih (i + 4) (a.drop 4) (by simp; omega)]
    rw [show i + 4 + 4 * n = i + 4 * (n + 1) by omega]
    omega

theorem dsum_chunk (pos : Int) (i : Nat) (d : Bytes) (hd : d.length = 4) (hp : (i : Int) ≠ pos) :
    dsum pos i d = fromLE d := by
  have : d ≠ [] := by intro h; simp [h] at hd
  rw [dsum, dif_neg this, if_neg hp, List.take_of_length_le (by omega), List.drop_of_length_le (by omega)]
  unfold dsum; simp

/-- The loop does not look at the skipped double word. -/
theorem csLoop_patch (n : Nat) (i : Nat) (bs d : Bytes) (c : Nat) (hd : d.length = 4)
    (hfit : 4 * n + 4 ≤ bs.length) :
    csLoop ((i + 4 * n : Nat) : Int) i (patch bs (4 * n) d) c = csLoop ((i + 4 * n : Nat) : Int) i bs c := by
  induction n generalizing i bs c with
  | zero =>
    have h1 : bs ≠ [] := by intro h; simp [h] at hfit
    have h2 : patch bs (4 * 0) d ≠ [] := by
      intro h
      have := patch_length (b := bs) (d := d) (off := 4 * 0) (by omega)
      rw [h] at this; simp at this; omega
    rw [csLoop, dif_neg h2]
    conv => rhs; rw [csLoop, dif_neg h1]
    simp only [Nat.mul_zero, Nat.add_zero, if_true]
    have : List.drop 4 (patch bs 0 d) = List.drop 4 bs := by
      simp [patch, hd]
    rw [this]
  | succ n ih =>
    have h1 : bs ≠ [] := by intro h; simp [h] at hfit
    have h2 : patch bs (4 * (n + 1)) d ≠ [] := by
      intro h
      have := patch_length (b := bs) (d := d) (off := 4 * (n + 1)) (by omega)
      rw [h] at this; simp at this; omega
    rw [csLoop, dif_neg h2]
    conv => rhs; rw [csLoop, dif_neg h1]
    have e1 : List.take 4 (patch bs (4 * (n + 1)) d) = List.take 4 bs := by
      have := slice_patch_before (b := bs) (d := d) (off := 4 * (n + 1)) (o := 0) (n := 4) (by omega) (by omega)
      simpa [slice] using this
    have e2 : List.drop 4 (patch bs (4 * (n + 1)) d) = patch (List.drop 4 bs) (4 * n) d := by
      unfold patch
      rw [List.append_assoc, List.drop_append_of_le_length (by simp; omega), List.append_assoc,
        List.drop_take, List.drop_drop, show 4 * (n + 1) - 4 = 4 * n by omega,
        show 4 * (n + 1) + d.length = 4 + (4 * n + d.length) by omega]
    have e3 : i + 4 * (n + 1) = i + 4 + 4 * n := by omega
    dsimp only
    rw [e1, e2, e3]
    exact ih (i + 4) (bs.drop 4) _ (by simp; omega)

end PE
