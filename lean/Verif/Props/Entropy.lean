/-
C50: entropy of data is between 0 and 8 bits.
-/
import Verif.Model.Entropy
import Verif.Lemmas.Basic
import Mathlib.Analysis.SpecialFunctions.Log.NegMulLog
import Mathlib.Analysis.Convex.Jensen
import Mathlib.Algebra.BigOperators.Fin
import Mathlib.Algebra.BigOperators.Field
import Mathlib.Algebra.Order.BigOperators.Ring.Finset
import Mathlib.Tactic.Linarith
import Mathlib.Tactic.Positivity
import Mathlib.Tactic.FieldSimp
import Mathlib.Tactic.NormNum
namespace PE
open Finset

/-- Relative frequency of byte value `i`. -/
noncomputable def freq (data : Bytes) (i : Nat) : ℝ :=
  (data.countP (fun b => b.toNat == i) : ℝ) / (data.length : ℝ)

theorem byteCount_eq {data : Bytes} (h : data.length < 2 ^ 32) (i : Nat) :
    byteCount data i = data.countP (fun b => b.toNat == i) := by
  unfold byteCount w32
  exact Nat.mod_eq_of_lt (Nat.lt_of_le_of_lt List.countP_le_length h)

theorem freq_nonneg (data : Bytes) (i : Nat) : 0 ≤ freq data i := by unfold freq; positivity

theorem freq_le_one (data : Bytes) (i : Nat) : freq data i ≤ 1 := by
  unfold freq
  apply div_le_one_of_le₀
  · exact_mod_cast List.countP_le_length
  · positivity

theorem count_sum (data : Bytes) :
    ∑ i ∈ range 256, data.countP (fun b => b.toNat == i) = data.length := by
  induction data with
  | nil => simp
  | cons b t ih =>
    simp only [List.countP_cons, List.length_cons, sum_add_distrib, ih]
    have : ∑ i ∈ range 256, (if (b.toNat == i) = true then 1 else 0) = 1 := by
      simp only [beq_iff_eq]
      rw [sum_ite_eq]
      simp [b.toNat_lt]
    rw [this]

theorem freq_sum {data : Bytes} (h : data ≠ []) : ∑ i ∈ range 256, freq data i = 1 := by
  unfold freq
  rw [← sum_div]
  have := count_sum data
  have h2 : (∑ i ∈ range 256, (data.countP (fun b => b.toNat == i) : ℝ)) = (data.length : ℝ) := by
    exact_mod_cast this
  rw [h2]
  have : (data.length : ℝ) ≠ 0 := by
    have := List.length_pos_iff.mpr h
    positivity
  exact div_self this

theorem list_range_sum (f : Nat → ℝ) (n : Nat) : ((List.range n).map f).sum = ∑ i ∈ range n, f i := by
  induction n with
  | zero => simp
  | succ n ih => rw [List.range_succ, List.map_append, List.sum_append, ih, sum_range_succ]; simp

/-- The computed sum is the Shannon entropy in bits. -/
theorem entropy_eq {data : Bytes} (h : data.length < 2 ^ 32) :
    entropyOfCounts (byteCount data) data.length =
      (∑ i ∈ range 256, Real.negMulLog (freq data i)) / Real.log 2 := by
  unfold entropyOfCounts
  rw [Finset.sum_div, ← list_range_sum]
  congr 1
  apply List.map_congr_left
  intro i _
  rw [byteCount_eq h]
  show (if freq data i > 0 then _ else _) = _
  have hl2 : 0 < Real.log 2 := Real.log_pos (by norm_num)
  split
  · next hp =>
    have hlog : Real.log (freq data i) ≤ 0 := Real.log_nonpos (freq_nonneg _ _) (freq_le_one _ _)
    show |freq data i * (Real.log (freq data i) * (1 / Real.log 2))| = _
    rw [abs_of_nonpos]
    · unfold Real.negMulLog; ring
    · have : Real.log (freq data i) * (1 / Real.log 2) ≤ 0 :=
        mul_nonpos_of_nonpos_of_nonneg hlog (by positivity)
      exact mul_nonpos_of_nonneg_of_nonpos hp.le this
  · next hp =>
    have : freq data i = 0 := le_antisymm (not_lt.mp hp) (freq_nonneg _ _)
    rw [this]; simp

/-- C50 (bounds): the entropy of a non-empty byte string is between 0 and 8. -/
theorem C50_entropy_bounds (data : Bytes) (h : data.length < 2 ^ 32) (hne : data ≠ []) :
    ∃ e, entropyOfData data = .ok e ∧ 0 ≤ e ∧ e ≤ 8 := by
  refine ⟨entropyOfCounts (byteCount data) data.length, ?_, ?_, ?_⟩
  · unfold entropyOfData
    rw [if_neg (by simpa using hne)]
  · rw [entropy_eq h]
    apply div_nonneg
    · exact sum_nonneg (fun i _ => Real.negMulLog_nonneg (freq_nonneg _ _) (freq_le_one _ _))
    · exact Real.log_nonneg (by norm_num)
  · rw [entropy_eq h]
    have hl2 : 0 < Real.log 2 := Real.log_pos (by norm_num)
    rw [div_le_iff₀ hl2]
    have hj := Real.concaveOn_negMulLog.le_map_sum (t := range 256) (w := fun _ => (1 / 256 : ℝ))
      (p := freq data) (by intros; norm_num) (by simp) (by intro i _; exact freq_nonneg data i)
    simp only [smul_eq_mul, ← mul_sum, freq_sum hne, mul_one] at hj
    have h256 : Real.negMulLog (1 / 256 : ℝ) = 1 / 256 * (8 * Real.log 2) := by
      unfold Real.negMulLog
      rw [Real.log_div (by norm_num) (by norm_num), Real.log_one, show (256 : ℝ) = 2 ^ 8 by norm_num,
        Real.log_pow]
      ring_nf
    rw [h256] at hj
    linarith

/-- C50 (zero): the entropy is 0 exactly if all bytes are equal. -/
theorem C50_entropy_zero_iff (data : Bytes) (h : data.length < 2 ^ 32) (hne : data ≠ []) :
    entropyOfData data = .ok 0 ↔ ∃ b, ∀ x ∈ data, x = b := by
  have hl2 : 0 < Real.log 2 := Real.log_pos (by norm_num)
  have e : entropyOfData data = .ok (entropyOfCounts (byteCount data) data.length) := by
    unfold entropyOfData
    rw [if_neg (by simpa using hne)]
  rw [e]
  simp only [Except.ok.injEq]
  rw [entropy_eq h, div_eq_zero_iff, or_iff_left hl2.ne',
    sum_eq_zero_iff_of_nonneg (fun i _ => Real.negMulLog_nonneg (freq_nonneg _ _) (freq_le_one _ _))]
  have hlen : (0 : ℝ) < data.length := by
    have := List.length_pos_iff.mpr hne
    exact_mod_cast this
  constructor
  · intro hz
    obtain ⟨b, t, rfl⟩ := List.exists_cons_of_ne_nil hne
    refine ⟨b, ?_⟩
    have hb := hz b.toNat (by simpa using b.toNat_lt)
    have hcount : 0 < ((b :: t).countP (fun x => x.toNat == b.toNat)) := by
      rw [List.countP_pos_iff]; exact ⟨b, by simp, by simp⟩
    have hpos : 0 < freq (b :: t) b.toNat := by
      unfold freq
      apply div_pos
      · exact_mod_cast hcount
      · exact hlen
    have h1 : freq (b :: t) b.toNat = 1 := by
      have := hb
      unfold Real.negMulLog at this
      rcases mul_eq_zero.mp this with h0 | h0
      · linarith
      · rcases Real.log_eq_zero.mp h0 with h0 | h0 | h0 <;> linarith
    have h2 : (b :: t).countP (fun x => x.toNat == b.toNat) = (b :: t).length := by
      unfold freq at h1
      rw [div_eq_one_iff_eq hlen.ne'] at h1
      exact_mod_cast h1
    intro x hx
    have := List.countP_eq_length.mp h2 x hx
    exact UInt8.toNat_inj.mp (by simpa using this)
  · rintro ⟨b, hb⟩ i _
    by_cases hi : i = b.toNat
    · have : data.countP (fun x => x.toNat == i) = data.length := by
        rw [List.countP_eq_length]; intro x hx; simp [hb x hx, hi]
      unfold freq
      rw [this, div_self hlen.ne']; simp
    · have : data.countP (fun x => x.toNat == i) = 0 := by
        rw [List.countP_eq_zero]; intro x hx; simp [hb x hx]; exact fun h => hi h.symm
      unfold freq
      rw [this]; simp

/-- C50 (order): reordering the bytes does not change the entropy. -/
theorem C50_entropy_perm (data data' : Bytes) (h : data.Perm data') :
    entropyOfData data = entropyOfData data' := by
  have : byteCount data = byteCount data' := by
    funext i; unfold byteCount; rw [h.countP_eq]
  unfold entropyOfData
  rw [this, h.length_eq]

/-- C50 (sections): an empty section is rejected, otherwise the entropy of its raw data is returned. -/
theorem C50_entropy_section (s : Sec) :
    (s.data = [] → entropyOfSection s = .error (.exn .sectionIsEmpty)) ∧
    (s.data ≠ [] → entropyOfSection s = entropyOfData s.data) := by
  unfold entropyOfSection
  constructor <;> intro h <;> simp [h, throwE]

theorem w32_lt' {n : Nat} (h : n < 2 ^ 32) : w32 n = n := Nat.mod_eq_of_lt h

theorem foldl_count (i : Nat) (l : Bytes) (a : Nat) (h : a + l.length < 2 ^ 32) :
    l.foldl (fun a b => if b.toNat == i then w32 (a + 1) else a) a = a + l.countP (fun b => b.toNat == i) := by
  induction l generalizing a with
  | nil => simp
  | cons b t ih =>
    simp only [List.length_cons] at h
    rw [List.foldl_cons, List.countP_cons]
    by_cases hb : b.toNat == i
    · rw [if_pos hb, if_pos hb, ih _ (by rw [w32_lt' (by omega)]; omega), w32_lt' (by omega)]; omega
    · rw [if_neg hb, if_neg hb, ih _ (by omega)]; omega

theorem imageByteCount_eq (secs : List Sec) (i : Nat) (a : Nat)
    (h : a + (secs.map (fun s => s.data.length)).sum < 2 ^ 32) :
    secs.foldl (fun acc s => s.data.foldl (fun a b => if b.toNat == i then w32 (a + 1) else a) acc) a =
      a + (secs.flatMap (·.data)).countP (fun b => b.toNat == i) := by
  induction secs generalizing a with
  | nil => simp
  | cons s t ih =>
    simp only [List.map_cons, List.sum_cons] at h
    rw [List.foldl_cons, foldl_count _ _ _ (by omega), List.flatMap_cons, List.countP_append, ih]
    · omega
    · have := List.countP_le_length (p := fun b : UInt8 => b.toNat == i) (l := s.data); omega

/-- C50 (whole image): with at least one byte of section data (and less than 4 GiB in total), the entropy of an
image is that of the concatenated section contents. Without any data it is 0. -/
theorem C50_entropy_image (secs : List Sec) (h : (secs.map (fun s => s.data.length)).sum < 2 ^ 32) :
    (secs.flatMap (·.data) ≠ [] → entropyOfData (secs.flatMap (·.data)) = .ok (entropyOfImage secs)) ∧
    (secs.flatMap (·.data) = [] → entropyOfImage secs = 0) := by
  have hl : (secs.flatMap (·.data)).length = (secs.map (fun s => s.data.length)).sum := by
    rw [List.length_flatMap]
  have hc : imageByteCount secs = byteCount (secs.flatMap (·.data)) := by
    funext i
    rw [byteCount_eq (by rw [hl]; exact h)]
    unfold imageByteCount
    rw [imageByteCount_eq _ _ _ (by omega)]; omega
  constructor
  · intro hne
    unfold entropyOfData entropyOfImage
    rw [if_neg (by rw [List.length_eq_zero_iff]; exact hne), hc, hl]
  · intro he
    unfold entropyOfImage entropyOfCounts
    rw [← hl, he]
    refine List.sum_eq_zero ?_
    intro x hx
    obtain ⟨i, _, rfl⟩ := List.mem_map.mp hx
    norm_num

/-- C50 (streams): the entropy of a stream is that of the bytes from its position to its end. -/
theorem C50_entropy_stream (file : Bytes) (pos : Nat) :
    entropyOfStream file pos = entropyOfData (file.drop pos) := by
  unfold entropyOfStream entropyOfData
  rw [List.length_drop, List.take_of_length_le (by simp)]

example : ([1, 2, 3] : Bytes).length < 2 ^ 32 ∧ ([1, 2, 3] : Bytes) ≠ [] := by decide

end PE
