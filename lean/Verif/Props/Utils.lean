/-
C01: alignment helpers round correctly.
-/
import Verif.Lemmas.Align
namespace PE

/-- C01 (align_down): the greatest multiple of `a` not above `x`. -/
theorem C01_align_down {x a : Nat} (ha : Pow2 a) (hx : x < 2 ^ 32) :
    a ∣ alignDown x a ∧ alignDown x a ≤ x ∧ ∀ m, a ∣ m → m ≤ x → m ≤ alignDown x a := by
  rw [alignDown_eq ha hx]
  refine ⟨Nat.dvd_mul_left _ _, Nat.div_mul_le_self _ _, ?_⟩
  rintro m ⟨q, rfl⟩ hm
  rw [Nat.mul_comm a q]
  apply Nat.mul_le_mul_right
  rw [Nat.le_div_iff_mul_le ha.pos, Nat.mul_comm]
  exact hm

/-- C01 (align_up): if some 32-bit multiple of `a` is at least `x`, the result is the least one. -/
theorem C01_align_up {x a : Nat} (ha : Pow2 a) (hx : x < 2 ^ 32)
    (hfit : ∃ m, m < 2 ^ 32 ∧ a ∣ m ∧ x ≤ m) :
    a ∣ alignUp x a ∧ x ≤ alignUp x a ∧ alignUp x a < 2 ^ 32 ∧
      ∀ m, a ∣ m → x ≤ m → alignUp x a ≤ m := by
  obtain ⟨m0, hm0, hd, hle⟩ := hfit
  have h := ceilTo_least ha.pos hd hle
  rw [alignUp_of_le ha hx (by omega)]
  exact ⟨ceilTo_dvd _ _, ceilTo_ge ha.pos, by omega, fun m hm hxm => ceilTo_least ha.pos hm hxm⟩

/-- C01 (align_up, wrap): if no 32-bit multiple of `a` is at least `x`, the result is 0. -/
theorem C01_align_up_wraps {x a : Nat} (ha : Pow2 a) (hx : x < 2 ^ 32)
    (hno : ¬ ∃ m, m < 2 ^ 32 ∧ a ∣ m ∧ x ≤ m) : alignUp x a = 0 := by
  rw [alignUp_ceil ha hx]
  have h1 := ceilTo_le_word ha (Nat.le_of_lt hx)
  have h2 : ¬ ceilTo x a < 4294967296 := fun h =>
    hno ⟨_, h, ceilTo_dvd _ _, ceilTo_ge ha.pos⟩
  have : ceilTo x a = 4294967296 := by omega
  rw [this]

/-- C01 (`align_up<size_t>`): no wrap for lengths that can exist (below 2^63). -/
theorem C01_align_up_size_t {x a : Nat} (ha : Pow2 a) (hx : x < 2 ^ 63) :
    a ∣ alignUp64 x a ∧ x ≤ alignUp64 x a ∧ ∀ m, a ∣ m → x ≤ m → alignUp64 x a ≤ m := by
  rw [alignUp64_eq ha hx]
  exact ⟨ceilTo_dvd _ _, ceilTo_ge ha.pos, fun m hm hxm => ceilTo_least ha.pos hm hxm⟩

/-- C01 (is_power_of_2): accepts exactly 0 and the powers of two. -/
theorem C01_is_power_of_2 {x : Nat} (hx : x < 2 ^ 32) :
    isPowerOf2 x = true ↔ x = 0 ∨ ∃ k, x = 2 ^ k := by
  rw [isPowerOf2_iff hx]
  constructor
  · rintro (h | ⟨k, _, h⟩)
    · exact .inl h
    · exact .inr ⟨k, h⟩
  · rintro (h | ⟨k, h⟩)
    · exact .inl h
    · refine .inr ⟨k, ?_, h⟩
      rw [h] at hx
      exact (Nat.pow_lt_pow_iff_right (by decide)).mp hx

-- the hypotheses are met by ordinary values, on both sides of the boundary
example : Pow2 4096 ∧ (0x12345 : Nat) < 2 ^ 32 ∧ alignUp 0x12345 4096 = 0x13000 ∧
    alignDown 0x12345 4096 = 0x12000 := ⟨pow2_4096, by decide, by decide, by decide⟩
example : ∃ m, m < 2 ^ 32 ∧ 4096 ∣ m ∧ (0x12345 : Nat) ≤ m := ⟨0x13000, by decide, by decide, by decide⟩
example : ¬ ∃ m, m < 2 ^ 32 ∧ 4096 ∣ m ∧ (0xFFFFF001 : Nat) ≤ m := by
  rintro ⟨m, h1, h2, h3⟩; omega
example : alignUp 0xFFFFF001 4096 = 0 := by decide

end PE
