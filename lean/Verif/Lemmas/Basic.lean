/-
Helper lemmas on outcomes, words and byte strings.
-/
import Verif.Model.Basic
namespace PE

theorem bind_ok_iff {α β : Type} {x : Res α} {f : α → Res β} {b : β} :
    (x >>= f) = .ok b ↔ ∃ a, x = .ok a ∧ f a = .ok b := by
  cases x <;> simp [bind, Except.bind]

@[simp] theorem ok_bind {α β : Type} (a : α) (f : α → Res β) : ((.ok a : Res α) >>= f) = f a := rfl
@[simp] theorem error_bind {α β : Type} (e : Fault) (f : α → Res β) :
    ((.error e : Res α) >>= f) = .error e := rfl
@[simp] theorem throwE_bind {α β : Type} (e : Err) (f : α → Res β) :
    ((throwE e : Res α) >>= f) = throwE e := rfl
@[simp] theorem ubE_bind {α β : Type} (e : UB) (f : α → Res β) :
    ((ubE e : Res α) >>= f) = ubE e := rfl
@[simp] theorem throwE_ne_ok {α : Type} (e : Err) (a : α) : (throwE e : Res α) ≠ .ok a := by
  simp [throwE]
@[simp] theorem ubE_ne_ok {α : Type} (e : UB) (a : α) : (ubE e : Res α) ≠ .ok a := by
  simp [ubE]
@[simp] theorem throwE_ne_ub {α : Type} (e : Err) (u : UB) : (throwE e : Res α) ≠ .error (.ub u) := by
  simp [throwE]
@[simp] theorem throwIf_ok_iff {c : Prop} [Decidable c] {e : Err} {u : Unit} :
    throwIf c e = .ok u ↔ ¬ c := by
  unfold throwIf throwE; split <;> simp_all

theorem throwIf_pos {c : Prop} [Decidable c] {e : Err} (h : c) : throwIf c e = throwE e := by
  simp [throwIf, h]
theorem throwIf_neg {c : Prop} [Decidable c] {e : Err} (h : ¬ c) : throwIf c e = .ok () := by
  simp [throwIf, h]

theorem throwIf_bind_ok_iff {α : Type} {c : Prop} [Decidable c] {e : Err} {f : Unit → Res α} {b : α} :
    (throwIf c e >>= f) = .ok b ↔ ¬ c ∧ f () = .ok b := by
  by_cases h : c
  · rw [throwIf_pos h]
    exact ⟨fun h => (by cases h), fun h' => absurd h h'.1⟩
  · rw [throwIf_neg h, ok_bind]
    exact ⟨fun h' => ⟨h, h'⟩, fun h' => h'.2⟩

/-- The outcome is not undefined behaviour. -/
def NoUB {α : Type} (r : Res α) : Prop := ∀ u, r ≠ .error (.ub u)

theorem NoUB.ok {α : Type} (a : α) : NoUB (.ok a : Res α) := by intro u; simp
theorem NoUB.throwE {α : Type} (e : Err) : NoUB (throwE e : Res α) := by
  intro u; simp [PE.throwE]
theorem NoUB.throwIf (c : Prop) [Decidable c] (e : Err) : NoUB (throwIf c e) := by
  unfold PE.throwIf; split
  · exact NoUB.throwE e
  · exact NoUB.ok _
theorem NoUB.bind {α β : Type} {x : Res α} {f : α → Res β} (hx : NoUB x)
    (hf : ∀ a, x = .ok a → NoUB (f a)) : NoUB (x >>= f) := by
  cases x with
  | error e => exact fun u h => hx u (by simpa using h)
  | ok a => exact hf a rfl

/-! ### Byte strings -/

@[simp] theorem leBytes_length (k n : Nat) : (leBytes k n).length = k := by
  induction k generalizing n with
  | zero => rfl
  | succ k ih => simp [leBytes, ih]

@[simp] theorem zeros_length (n : Nat) : (zeros n).length = n := by simp [zeros]
@[simp] theorem zeros_zero : zeros 0 = [] := rfl

theorem fromLE_leBytes (k n : Nat) : fromLE (leBytes k n) = n % 256 ^ k := by
  induction k generalizing n with
  | zero => simp [leBytes, fromLE, Nat.mod_one]
  | succ k ih =>
    rw [leBytes, fromLE, ih, Nat.pow_succ, Nat.mul_comm (256 ^ k) 256, Nat.mod_mul]
    simp

theorem fromLE_lt (b : Bytes) : fromLE b < 256 ^ b.length := by
  induction b with
  | nil => simp [fromLE]
  | cons x t ih =>
    have := x.toNat_lt
    simp only [fromLE, List.length_cons, Nat.pow_succ]
    omega

theorem leBytes_fromLE (b : Bytes) : leBytes b.length (fromLE b) = b := by
  induction b with
  | nil => rfl
  | cons x t ih =>
    have hx := x.toNat_lt
    simp only [List.length_cons, leBytes, fromLE]
    have h1 : UInt8.ofNat (x.toNat + 256 * fromLE t) = x := by
      apply UInt8.toNat_inj.mp
      simp
    have h2 : (x.toNat + 256 * fromLE t) / 256 = fromLE t := by omega
    rw [h1, h2, ih]

theorem leBytes_fromLE' {b : Bytes} {k : Nat} (h : b.length = k) : leBytes k (fromLE b) = b := by
  subst h; exact leBytes_fromLE b

@[simp] theorem fromLE_zeros (n : Nat) : fromLE (zeros n) = 0 := by
  induction n with
  | zero => rfl
  | succ n ih =>
    simp only [zeros] at ih
    simp [zeros, List.replicate_succ, fromLE, ih]

theorem leBytes_zero (k : Nat) : leBytes k 0 = zeros k := by
  induction k with
  | zero => rfl
  | succ k ih => simp [leBytes, zeros, List.replicate_succ, ih]

theorem leBytes_inj {k m n : Nat} (hm : m < 256 ^ k) (hn : n < 256 ^ k)
    (h : leBytes k m = leBytes k n) : m = n := by
  have := congrArg fromLE h
  rwa [fromLE_leBytes, fromLE_leBytes, Nat.mod_eq_of_lt hm, Nat.mod_eq_of_lt hn] at this

theorem leBytes_mod (k n : Nat) : leBytes k (n % 256 ^ k) = leBytes k n := by
  have h := leBytes_fromLE (leBytes k n)
  rwa [leBytes_length, fromLE_leBytes] at h

/-! ### Slices -/

theorem slice_length (b : Bytes) (off n : Nat) : (slice b off n).length = min n (b.length - off) := by
  simp [slice]

theorem slice_length_of_le {b : Bytes} {off n : Nat} (h : off + n ≤ b.length) :
    (slice b off n).length = n := by
  rw [slice_length]; omega

theorem slice_append_left {a b : Bytes} {off n : Nat} (h : off + n ≤ a.length) :
    slice (a ++ b) off n = slice a off n := by
  unfold slice
  rw [List.drop_append_of_le_length (by omega), List.take_append_of_le_length (by simp; omega)]

theorem slice_append_right {a b : Bytes} {off n : Nat} (h : a.length ≤ off) :
    slice (a ++ b) off n = slice b (off - a.length) n := by
  unfold slice
  rw [List.drop_append, List.drop_of_length_le h, List.nil_append]

@[simp] theorem slice_zero_length (a : Bytes) : slice a 0 a.length = a := by simp [slice]

theorem slice_append_here {a b : Bytes} {n : Nat} (h : n = a.length) : slice (a ++ b) 0 n = a := by
  subst h; simp [slice]

theorem slice_slice {b : Bytes} {o1 n1 o2 n2 : Nat} (h : o2 + n2 ≤ n1) :
    slice (slice b o1 n1) o2 n2 = slice b (o1 + o2) n2 := by
  unfold slice
  rw [List.drop_take, List.take_take, List.drop_drop]
  congr 1; omega

theorem slice_add {b : Bytes} {off m n : Nat} :
    slice b off (m + n) = slice b off m ++ slice b (off + m) n := by
  unfold slice
  rw [List.take_add, List.drop_drop]

theorem rd_skip {a b : Bytes} {w off : Nat} (h : a.length ≤ off) :
    rd w (a ++ b) off = rd w b (off - a.length) := by
  simp [rd, slice_append_right h]

theorem rd_left {a b : Bytes} {w off : Nat} (h : off + w ≤ a.length) :
    rd w (a ++ b) off = rd w a off := by
  simp [rd, slice_append_left h]

theorem rd_here (w n : Nat) (b : Bytes) : rd w (leBytes w n ++ b) 0 = n % 256 ^ w := by
  rw [rd, slice_append_here (by simp), fromLE_leBytes]

theorem rd_here' (w n : Nat) : rd w (leBytes w n) 0 = n % 256 ^ w := by
  have := rd_here w n []; simpa using this

theorem rd_leBytes_skip {k n w off : Nat} {b : Bytes} (h : k ≤ off) :
    rd w (leBytes k n ++ b) off = rd w b (off - k) := by
  rw [rd_skip (by simpa using h)]; simp

theorem rd_lt (w : Nat) (b : Bytes) (off : Nat) : rd w b off < 256 ^ w := by
  unfold rd
  refine Nat.lt_of_lt_of_le (fromLE_lt _) ?_
  apply Nat.pow_le_pow_right (by decide)
  simp [slice]; omega

theorem readU_ok {n : Nat} {b : Bytes} {off : Nat} (h : off + n ≤ b.length) :
    readU n b off = .ok (rd n b off) := by simp [readU, h]

theorem readN_ok {n : Nat} {b : Bytes} {off : Nat} (h : off + n ≤ b.length) :
    readN b off n = .ok (slice b off n) := by simp [readN, h]

/-! ### Patches -/

theorem patch_length {b d : Bytes} {off : Nat} (h : off + d.length ≤ b.length) :
    (patch b off d).length = b.length := by
  simp [patch]; omega

theorem writeAt_ok {b d : Bytes} {off : Nat} (h : off + d.length ≤ b.length) :
    writeAt b off d = .ok (patch b off d) := by simp [writeAt, h]

theorem writeAt_ok_iff {b d r : Bytes} {off : Nat} :
    writeAt b off d = .ok r ↔ off + d.length ≤ b.length ∧ r = patch b off d := by
  unfold writeAt; split
  · simp_all [eq_comm]
  · simp only [ubE_ne_ok, false_iff]; intro h; omega

/-- Reading what was just written. -/
theorem slice_patch_same {b d : Bytes} {off : Nat} (h : off + d.length ≤ b.length) :
    slice (patch b off d) off d.length = d := by
  unfold patch
  rw [List.append_assoc, slice_append_right (by simp; omega)]
  rw [slice_append_left (by simp; omega)]
  have : (off - (List.take off b).length) = 0 := by simp; omega
  rw [this]; simp

/-- Reading elsewhere: before the patch. -/
theorem slice_patch_before {b d : Bytes} {off o n : Nat} (h : off ≤ b.length) (ho : o + n ≤ off) :
    slice (patch b off d) o n = slice b o n := by
  unfold patch
  rw [List.append_assoc, slice_append_left (by simp; omega)]
  conv => rhs; rw [← List.take_append_drop off b]
  rw [slice_append_left (by simp; omega)]

/-- Reading elsewhere: after the patch. -/
theorem slice_patch_after {b d : Bytes} {off o n : Nat} (h : off + d.length ≤ b.length)
    (ho : off + d.length ≤ o) : slice (patch b off d) o n = slice b o n := by
  unfold patch
  rw [slice_append_right (by simp; omega)]
  unfold slice
  rw [List.drop_drop]
  congr 2
  simp; omega

theorem slice_patch_disjoint {b d : Bytes} {off o n : Nat} (h : off + d.length ≤ b.length)
    (ho : o + n ≤ off ∨ off + d.length ≤ o) : slice (patch b off d) o n = slice b o n := by
  rcases ho with ho | ho
  · exact slice_patch_before (by omega) ho
  · exact slice_patch_after h ho

theorem patch_nil (b : Bytes) (off : Nat) : patch b off [] = b := by simp [patch]

/-- Two adjacent patches are one patch. -/
theorem patch_patch_adjacent {b d e : Bytes} {off : Nat} (h : off + d.length + e.length ≤ b.length) :
    patch (patch b off d) (off + d.length) e = patch b off (d ++ e) := by
  have hl : (List.take off b ++ d).length = off + d.length := by simp; omega
  simp only [patch]
  rw [List.append_assoc (List.take off b) d (List.drop _ b)]
  rw [← List.append_assoc (List.take off b) d (List.drop _ b)]
  rw [List.take_append_of_le_length (by omega), List.take_of_length_le (by omega)]
  rw [List.drop_append, List.drop_of_length_le (by omega), hl, List.drop_drop]
  simp [Nat.add_assoc]

/-! ### resize -/

@[simp] theorem resize_length (b : Bytes) (n : Nat) : (resize b n).length = n := by
  simp [resize]; omega

theorem resize_of_le {b : Bytes} {n : Nat} (h : b.length ≤ n) : resize b n = b ++ zeros (n - b.length) := by
  simp [resize, List.take_of_length_le h]

theorem resize_of_ge {b : Bytes} {n : Nat} (h : n ≤ b.length) : resize b n = b.take n := by
  have : n - b.length = 0 := by omega
  simp [resize, this]

@[simp] theorem resize_self (b : Bytes) : resize b b.length = b := by simp [resize]

theorem slice_resize {b : Bytes} {m off n : Nat} (h : b.length ≤ m) (h2 : off + n ≤ b.length) :
    slice (resize b m) off n = slice b off n := by
  rw [resize_of_le h, slice_append_left h2]

/-! ### C strings -/

theorem hasNul_iff {b : Bytes} : hasNul b = true ↔ (0 : UInt8) ∈ b := by
  simp [hasNul]

theorem cstr_append_zero {s t : Bytes} (h : ∀ x ∈ s, x ≠ 0) : cstr (s ++ 0 :: t) = s := by
  unfold cstr
  rw [List.takeWhile_append_of_pos (by simpa using h)]
  simp

theorem cstr_ne_zero {b : Bytes} : ∀ x ∈ cstr b, x ≠ 0 := by
  unfold cstr
  induction b with
  | nil => simp
  | cons a t ih =>
    intro x hx
    rw [List.takeWhile_cons] at hx
    split at hx
    · next h =>
      rcases List.mem_cons.mp hx with h1 | h1
      · subst h1; simpa using h
      · exact ih x h1
    · simp at hx

/-- Evaluate a closed run: it succeeds with a result that passes the test. -/
def okAnd {α : Type} (x : Res α) (f : α → Bool) : Bool :=
  match x with
  | .ok a => f a
  | .error _ => false

theorem exists_of_okAnd {α : Type} {x : Res α} {f : α → Bool} (h : okAnd x f = true) : ∃ a, x = .ok a ∧ f a = true := by
  cases x with
  | ok a => exact ⟨a, rfl, h⟩
  | error e => exact absurd h (by simp [okAnd])

end PE
