/-
Helper lemmas on the alignment functions of utils.h.
-/
import Verif.Model.Utils
import Verif.Spec.Arith
namespace PE

theorem and_high_mask {w k x : Nat} (hk : k ≤ w) (hx : x < 2 ^ w) :
    x &&& (2 ^ w - 1 - (2 ^ k - 1)) = x / 2 ^ k * 2 ^ k := by
  have hpos : 0 < 2 ^ k := Nat.two_pow_pos k
  have hle : 2 ^ k ≤ 2 ^ w := Nat.pow_le_pow_right (by decide) hk
  have e : 2 ^ w - 1 - (2 ^ k - 1) = 2 ^ w - ((2 ^ k - 1) + 1) := by omega
  rw [e]
  apply Nat.eq_of_testBit_eq
  intro i
  rw [Nat.testBit_and, Nat.testBit_two_pow_sub_succ (by omega), Nat.testBit_mul_two_pow,
    Nat.testBit_two_pow_sub_one]
  by_cases h : k ≤ i
  · by_cases h2 : i < w
    · have : ¬ i < k := by omega
      simp only [h2, decide_true, this, decide_false, Bool.not_false, Bool.and_true, h, Bool.true_and,
        Nat.testBit_div_two_pow]
      congr 1; omega
    · have hf : x.testBit i = false := Nat.testBit_lt_two_pow (Nat.lt_of_lt_of_le hx
        (Nat.pow_le_pow_right (by decide) (by omega)))
      have hf2 : (x / 2 ^ k).testBit (i - k) = false := by
        rw [Nat.testBit_div_two_pow, show i - k + k = i by omega, hf]
      simp [hf, hf2]
  · have : i < k := by omega
    simp [this, h]

theorem alignDownT_eq {w k x : Nat} (hk : k < w) (hx : x < 2 ^ w) :
    alignDownT (2 ^ w) x (2 ^ k) = x / 2 ^ k * 2 ^ k := by
  have hpos : 0 < 2 ^ k := Nat.two_pow_pos k
  have hlt : 2 ^ k < 2 ^ w := Nat.pow_lt_pow_right (by decide) hk
  have e : (2 ^ k % 2 ^ w + (2 ^ w - 1)) % 2 ^ w = 2 ^ k - 1 := by
    rw [Nat.mod_eq_of_lt hlt, show 2 ^ k + (2 ^ w - 1) = (2 ^ k - 1) + 2 ^ w by omega,
      Nat.add_mod_right, Nat.mod_eq_of_lt (by omega)]
  rw [alignDownT, e, and_high_mask (by omega) hx]

theorem sub32_one {a : Nat} (h0 : 0 < a) (h : a < 4294967296) : sub32 a 1 = a - 1 := by
  unfold sub32; omega

theorem alignUpT_eq {w k x : Nat} (hk : k < w) (hk2 : k < 32) (hx : x < 2 ^ w) :
    alignUpT (2 ^ w) x (2 ^ k) = (if x % 2 ^ k = 0 then x else (x / 2 ^ k + 1) * 2 ^ k % 2 ^ w) := by
  have hpos : 0 < 2 ^ k := Nat.two_pow_pos k
  have hlt : 2 ^ k < 2 ^ w := Nat.pow_lt_pow_right (by decide) hk
  have hlt2 : 2 ^ k < 2 ^ 32 := Nat.pow_lt_pow_right (by decide) hk2
  have e1 : sub32 (2 ^ k) 1 = 2 ^ k - 1 := sub32_one hpos (by simpa using hlt2)
  unfold alignUpT
  rw [e1, Nat.mod_eq_of_lt (show 2 ^ k - 1 < 2 ^ w by omega), Nat.and_two_pow_sub_one_eq_mod,
    alignDownT_eq hk hx, Nat.mod_eq_of_lt hlt]
  by_cases h : x % 2 ^ k = 0
  · simp [h]
  · rw [if_pos h, if_neg h, Nat.add_mul, Nat.one_mul]

theorem Pow2.pos {a : Nat} (h : Pow2 a) : 0 < a := by
  obtain ⟨k, _, rfl⟩ := h; exact Nat.two_pow_pos k

theorem Pow2.lt {a : Nat} (h : Pow2 a) : a < 4294967296 := by
  obtain ⟨k, hk, rfl⟩ := h
  have : 2 ^ k < 2 ^ 32 := Nat.pow_lt_pow_right (by decide) hk
  simpa using this

theorem Pow2.le {a : Nat} (h : Pow2 a) : a ≤ 2147483648 := by
  obtain ⟨k, hk, rfl⟩ := h
  have : 2 ^ k ≤ 2 ^ 31 := Nat.pow_le_pow_right (by decide) (by omega)
  simpa using this

theorem Pow2.dvd_of_le {a b : Nat} (ha : Pow2 a) (hb : Pow2 b) (h : a ≤ b) : a ∣ b := by
  obtain ⟨k, hk, rfl⟩ := ha
  obtain ⟨l, hl, rfl⟩ := hb
  exact (Nat.pow_dvd_pow_iff_le_right (by decide)).mpr ((Nat.pow_le_pow_iff_right (by decide)).mp h)

theorem Pow2.dvd_word {a : Nat} (h : Pow2 a) : a ∣ 4294967296 := by
  obtain ⟨k, hk, rfl⟩ := h
  have : (2:Nat) ^ k ∣ 2 ^ 32 := (Nat.pow_dvd_pow_iff_le_right (by decide)).mpr (by omega)
  simpa using this

theorem pow2_1 : Pow2 1 := ⟨0, by decide, rfl⟩
theorem pow2_4 : Pow2 4 := ⟨2, by decide, rfl⟩
theorem pow2_512 : Pow2 512 := ⟨9, by decide, rfl⟩
theorem pow2_4096 : Pow2 4096 := ⟨12, by decide, rfl⟩

theorem ceilTo_dvd (x a : Nat) : a ∣ ceilTo x a := by
  unfold ceilTo; split
  · exact Nat.dvd_of_mod_eq_zero ‹_›
  · exact Nat.dvd_mul_left _ _

theorem ceilTo_ge {x a : Nat} (ha : 0 < a) : x ≤ ceilTo x a := by
  unfold ceilTo; split
  · exact Nat.le_refl _
  · have h1 := Nat.div_add_mod x a
    have h2 := Nat.mod_lt x ha
    rw [Nat.add_mul, Nat.one_mul, Nat.mul_comm]
    omega

theorem ceilTo_lt {x a : Nat} (ha : 0 < a) : ceilTo x a < x + a := by
  unfold ceilTo; split
  · omega
  · have h1 := Nat.div_add_mod x a
    rw [Nat.add_mul, Nat.one_mul, Nat.mul_comm]
    omega

theorem ceilTo_least {x a m : Nat} (ha : 0 < a) (hd : a ∣ m) (hm : x ≤ m) : ceilTo x a ≤ m := by
  obtain ⟨q, rfl⟩ := hd
  obtain ⟨r, hr⟩ := ceilTo_dvd x a
  have := ceilTo_lt (x := x) ha
  rw [hr] at this ⊢
  have h2 : a * r < a * (q + 1) := by rw [Nat.mul_add]; omega
  have := Nat.lt_of_mul_lt_mul_left h2
  exact Nat.mul_le_mul_left a (by omega)

theorem ceilTo_of_dvd {x a : Nat} (h : a ∣ x) : ceilTo x a = x := by
  simp [ceilTo, Nat.mod_eq_zero_of_dvd h]

theorem ceilTo_zero (a : Nat) : ceilTo 0 a = 0 := by simp [ceilTo]

theorem ceilTo_mono {x y a : Nat} (ha : 0 < a) (h : x ≤ y) : ceilTo x a ≤ ceilTo y a :=
  ceilTo_least ha (ceilTo_dvd _ _) (Nat.le_trans h (ceilTo_ge ha))

theorem ceilTo_pos {x a : Nat} (ha : 0 < a) (hx : 0 < x) : 0 < ceilTo x a :=
  Nat.lt_of_lt_of_le hx (ceilTo_ge ha)

/-- Adding a multiple commutes with rounding up. -/
theorem ceilTo_add_mul {x m a : Nat} (ha : 0 < a) (hm : a ∣ m) : ceilTo (m + x) a = m + ceilTo x a := by
  apply Nat.le_antisymm
  · exact ceilTo_least ha (Nat.dvd_add hm (ceilTo_dvd _ _)) (by have := ceilTo_ge (x := x) ha; omega)
  · have h1 : m ≤ ceilTo (m + x) a := by have := ceilTo_ge (x := m + x) ha; omega
    have : ceilTo x a ≤ ceilTo (m + x) a - m :=
      ceilTo_least ha (Nat.dvd_sub (ceilTo_dvd _ _) hm) (by have := ceilTo_ge (x := m + x) ha; omega)
    omega

theorem ceilTo_ceilTo {x a b : Nat} (ha : 0 < a) (hb : 0 < b) (hd : a ∣ b) :
    ceilTo (ceilTo x a) b = ceilTo x b := by
  apply Nat.le_antisymm
  · exact ceilTo_least hb (ceilTo_dvd _ _) (ceilTo_least ha (Nat.dvd_trans hd (ceilTo_dvd _ _)) (ceilTo_ge hb))
  · exact ceilTo_mono hb (ceilTo_ge ha)

theorem ceilTo_le_ceilTo {x a b : Nat} (ha : 0 < a) (hb : 0 < b) (hd : a ∣ b) : ceilTo x a ≤ ceilTo x b :=
  ceilTo_least ha (Nat.dvd_trans hd (ceilTo_dvd _ _)) (ceilTo_ge hb)

theorem ceilTo_max {x y a : Nat} (ha : 0 < a) : ceilTo (max x y) a = max (ceilTo x a) (ceilTo y a) := by
  by_cases h : x ≤ y
  · rw [Nat.max_eq_right h, Nat.max_eq_right (ceilTo_mono ha h)]
  · rw [Nat.max_eq_left (by omega), Nat.max_eq_left (ceilTo_mono ha (by omega))]

theorem alignUpT_ceil {w a x : Nat} (hw : 32 ≤ w) (ha : Pow2 a) (hx : x < 2 ^ w) :
    alignUpT (2 ^ w) x a = ceilTo x a % 2 ^ w := by
  obtain ⟨k, hk, rfl⟩ := ha
  rw [alignUpT_eq (by omega) hk hx, ceilTo]
  split
  · rw [Nat.mod_eq_of_lt hx]
  · rfl

theorem alignUp_ceil {a x : Nat} (ha : Pow2 a) (hx : x < 4294967296) :
    alignUp x a = ceilTo x a % 4294967296 := alignUpT_ceil (w := 32) (by decide) ha hx

theorem alignUp64_ceil {a x : Nat} (ha : Pow2 a) (hx : x < 18446744073709551616) :
    alignUp64 x a = ceilTo x a % 18446744073709551616 := alignUpT_ceil (w := 64) (by decide) ha hx

theorem alignUp_of_le {a x : Nat} (ha : Pow2 a) (hx : x < 4294967296)
    (h : ceilTo x a < 4294967296) : alignUp x a = ceilTo x a := by
  rw [alignUp_ceil ha hx, Nat.mod_eq_of_lt h]

theorem alignUp64_eq {a x : Nat} (ha : Pow2 a) (hx : x < 9223372036854775808) :
    alignUp64 x a = ceilTo x a := by
  rw [alignUp64_ceil ha (by omega), Nat.mod_eq_of_lt]
  have := ceilTo_lt (x := x) ha.pos
  have := ha.le
  omega

/-- The only value above which rounding up leaves the 32-bit range is the largest multiple. -/
theorem ceilTo_le_word {a x : Nat} (ha : Pow2 a) (hx : x ≤ 4294967296) : ceilTo x a ≤ 4294967296 :=
  ceilTo_least ha.pos ha.dvd_word hx

theorem alignUp_dvd {a x : Nat} (ha : Pow2 a) (hx : x < 4294967296) : a ∣ alignUp x a := by
  rw [alignUp_ceil ha hx]
  exact (Nat.dvd_mod_iff ha.dvd_word).mpr (ceilTo_dvd _ _)

theorem alignUp_lt {a x : Nat} (ha : Pow2 a) (hx : x < 4294967296) : alignUp x a < 4294967296 := by
  rw [alignUp_ceil ha hx]; exact Nat.mod_lt _ (by decide)

theorem alignDown_eq {a x : Nat} (ha : Pow2 a) (hx : x < 4294967296) :
    alignDown x a = x / a * a := by
  obtain ⟨k, hk, rfl⟩ := ha
  exact alignDownT_eq (w := 32) hk hx

theorem alignUp_of_dvd {a x : Nat} (ha : Pow2 a) (hx : x < 4294967296) (h : a ∣ x) :
    alignUp x a = x := by
  rw [alignUp_ceil ha hx, ceilTo_of_dvd h, Nat.mod_eq_of_lt hx]

theorem alignUp_zero {a : Nat} (ha : Pow2 a) : alignUp 0 a = 0 := by
  rw [alignUp_ceil ha (by decide), ceilTo_zero]

theorem and_pred_eq_zero {x : Nat} (h0 : 0 < x) (h : x &&& (x - 1) = 0) : ∃ k, x = 2 ^ k := by
  induction x using Nat.strongRecOn with
  | _ x ih =>
    have hd := congrArg (· / 2) h
    simp only [Nat.and_div_two] at hd
    by_cases hodd : x % 2 = 1
    · have e : (x - 1) / 2 = x / 2 := by omega
      rw [e, Nat.and_self] at hd
      exact ⟨0, by omega⟩
    · have e : (x - 1) / 2 = x / 2 - 1 := by omega
      rw [e] at hd
      obtain ⟨k, hk⟩ := ih (x / 2) (by omega) (by omega) (by simpa using hd)
      exact ⟨k + 1, by rw [Nat.pow_succ]; omega⟩

theorem two_pow_and_pred (k : Nat) : 2 ^ k &&& (2 ^ k - 1) = 0 := by
  rw [Nat.and_two_pow_sub_one_eq_mod, Nat.mod_self]

theorem isPowerOf2_iff {x : Nat} (hx : x < 4294967296) : isPowerOf2 x = true ↔ x = 0 ∨ Pow2 x := by
  unfold isPowerOf2
  constructor
  · intro h
    by_cases h0 : x = 0
    · exact .inl h0
    · right
      rw [sub32_one (by omega) hx] at h
      obtain ⟨k, hk⟩ := and_pred_eq_zero (x := x) (by omega) (by simpa using h)
      refine ⟨k, ?_, hk⟩
      rw [hk, show (4294967296 : Nat) = 2 ^ 32 by decide] at hx
      exact (Nat.pow_lt_pow_iff_right (by decide)).mp hx
  · rintro (h | h)
    · subst h; decide
    · rw [sub32_one h.pos hx]
      obtain ⟨k, _, rfl⟩ := h
      simp

end PE
