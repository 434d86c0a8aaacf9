/-
C71: the accessors of fixed version information.
-/
import Verif.Model.FileVer
import Verif.Lemmas.Basic
namespace PE

/-! ### Flags -/

/-- The number of the bit a flag is kept in. -/
def VerFlag.bit : VerFlag → Nat
  | .debug => 0 | .prerelease => 1 | .patched => 2 | .privateBuild => 3 | .infoInferred => 4 | .specialBuild => 5

theorem VerFlag.mask_eq (f : VerFlag) : f.mask = 2 ^ f.bit := by cases f <;> rfl

theorem VerFlag.bit_inj {f g : VerFlag} (h : f.bit = g.bit) : f = g := by
  cases f <;> cases g <;> first | rfl | (exact absurd h (by decide))

theorem and_pow_ne (n i : Nat) : (n &&& 2 ^ i != 0) = n.testBit i := by
  have h : n &&& 2 ^ i = if n.testBit i then 2 ^ i else 0 := by
    apply Nat.eq_of_testBit_eq
    intro j
    rw [Nat.testBit_and, Nat.testBit_two_pow]
    by_cases e : i = j
    · subst e
      cases n.testBit i <;> simp
    · rw [decide_eq_false e, Bool.and_false]
      cases n.testBit i <;> simp [e]
  rw [h]
  cases n.testBit i
  · rfl
  · simp

theorem testBit_clear32 (f : VerFlag) (i : Nat) (h : i < 32) :
    (4294967295 - f.mask).testBit i = decide (i ≠ f.bit) := by
  have key : ∀ i < 32, (4294967295 - f.mask).testBit i = decide (i ≠ f.bit) := by cases f <;> decide
  exact key i h

theorem FileVer.setFlag_bits (v : FileVer) (f : VerFlag) (b : Bool) (hv : v.flags < 2 ^ 32) (i : Nat) :
    (v.setFlag f b).flags.testBit i = if i = f.bit then b else v.flags.testBit i := by
  unfold FileVer.setFlag
  cases b with
  | true =>
    show (v.flags ||| f.mask).testBit i = _
    rw [Nat.testBit_or, f.mask_eq, Nat.testBit_two_pow]
    by_cases h : i = f.bit
    · rw [if_pos h, decide_eq_true h.symm, Bool.or_true]
    · rw [if_neg h, decide_eq_false (fun e => h e.symm), Bool.or_false]
  | false =>
    show (v.flags &&& (4294967295 - f.mask)).testBit i = _
    rw [Nat.testBit_and]
    by_cases h : i < 32
    · rw [testBit_clear32 f i h]
      by_cases e : i = f.bit
      · rw [if_pos e, decide_eq_false (fun h => h e), Bool.and_false]
      · rw [if_neg e, decide_eq_true e, Bool.and_true]
    · have hb : f.bit < 32 := by cases f <;> decide
      rw [Nat.testBit_lt_two_pow (Nat.lt_of_lt_of_le hv (Nat.pow_le_pow_right (by decide) (by omega))), if_neg (by omega),
        Bool.false_and]

/-- C71: setting or clearing a flag is seen by its getter, by no other getter, changes no other bit of the raw value and
    no other field. -/
theorem C71_flags (v : FileVer) (hv : v.flags < 2 ^ 32) (f : VerFlag) (b : Bool) :
    (∀ g, (v.setFlag f b).isSet g = if g = f then b else v.isSet g) ∧
    (∀ i, i ≠ f.bit → (v.setFlag f b).flags.testBit i = v.flags.testBit i) ∧
    { v.setFlag f b with flags := v.flags } = v ∧ (v.setFlag f b).flags < 2 ^ 32 := by
  have hb := v.setFlag_bits f b hv
  refine ⟨fun g => ?_, fun i hi => by rw [hb, if_neg hi], ?_, ?_⟩
  · unfold FileVer.isSet
    rw [g.mask_eq, and_pow_ne, and_pow_ne, hb]
    by_cases h : g = f
    · rw [if_pos (by rw [h]), if_pos h]
    · rw [if_neg (fun e => h (VerFlag.bit_inj e)), if_neg h]
  · unfold FileVer.setFlag
    cases b <;> rfl
  · apply Nat.lt_pow_two_of_testBit
    intro i hi
    rw [hb, if_neg (by have : f.bit < 32 := (by cases f <;> decide); omega)]
    exact Nat.testBit_lt_two_pow (Nat.lt_of_lt_of_le hv (Nat.pow_le_pow_right (by decide) hi))

/-- A case: all flags set except one. -/
example : let v : FileVer := { flags := 0x3F }
    (v.setFlag .patched false).flags = 0x3B ∧ (v.setFlag .patched false).isSet .debug = true ∧
      (v.setFlag .patched false).isSet .patched = false := by decide

/-! ### Operating system and type -/

/-- C71: every named system (type) that is set is the one that is returned, and nothing else changes; two values with the
    same named system (type) have the same raw value. -/
theorem C71_os_type (v w : FileVer) (o : FileOs) (t : FileType) (ho : o ≠ .unknown) (ht : t ≠ .unknown) :
    (v.setOs o).getOs = o ∧ { v.setOs o with os := v.os } = v ∧ (v.setOs v.getOs) = v ∧
    (v.setType t).getType = t ∧ { v.setType t with type := v.type } = v ∧ (v.setType v.getType) = v ∧
    (v.getOs = o → w.getOs = o → v.os = w.os) ∧ (v.getType = t → w.getType = t → v.type = w.type) := by
  have back : ∀ u : FileVer, u.getOs ≠ .unknown → u.os = (({} : FileVer).setOs u.getOs).os := by
    intro u hu
    unfold FileVer.getOs at *
    split at hu <;> first | (rename_i e; rw [e]; rfl) | exact absurd rfl hu
  have back2 : ∀ u : FileVer, u.getType ≠ .unknown → u.type = (({} : FileVer).setType u.getType).type := by
    intro u hu
    unfold FileVer.getType at *
    split at hu <;> first | (rename_i e; rw [e]; rfl) | exact absurd rfl hu
  refine ⟨by cases o <;> first | rfl | exact absurd rfl ho, by cases o <;> rfl, ?_,
    by cases t <;> first | rfl | exact absurd rfl ht, by cases t <;> rfl, ?_, ?_, ?_⟩
  · by_cases h : v.getOs = .unknown
    · rw [h]; rfl
    · have e := back v h
      have e2 : v.setOs v.getOs = { v with os := (({} : FileVer).setOs v.getOs).os } := by
        cases hq : v.getOs <;> first | rfl | exact absurd hq h
      rw [e2, ← e]
  · by_cases h : v.getType = .unknown
    · rw [h]; rfl
    · have e := back2 v h
      have e2 : v.setType v.getType = { v with type := (({} : FileVer).setType v.getType).type } := by
        cases hq : v.getType <;> first | rfl | exact absurd hq h
      rw [e2, ← e]
  · intro h1 h2
    rw [back v (by rw [h1]; exact ho), back w (by rw [h2]; exact ho), h1, h2]
  · intro h1 h2
    rw [back2 v (by rw [h1]; exact ht), back2 w (by rw [h2]; exact ht), h1, h2]

/-- C71 is false for the unknown system and type: setting them is ignored, so that a known value cannot be reset. -/
theorem C71_unknown_ignored (v : FileVer) : v.setOs .unknown = v ∧ v.setType .unknown = v ∧
    (({ os := 4 } : FileVer).setOs .unknown).getOs = .win32 ∧ (({ type := 2 } : FileVer).setType .unknown).getType = .dll :=
  ⟨rfl, rfl, rfl, rfl⟩

/-! ### Version strings -/

/-- The number a string of decimal digits stands for. -/
def digitsValue (s : List Nat) : Nat := s.foldl (fun n c => 10 * n + (c - 48)) 0

/-- The usual notation of a number: digits only, no superfluous zeros. -/
structure Decimal (s : List Nat) (n : Nat) : Prop where
  digits : ∀ c ∈ s, 48 ≤ c ∧ c ≤ 57
  value : digitsValue s = n
  lead : s.head? = some 48 → s = [48]
  some : s ≠ []

theorem decimal_spec (n : Nat) : Decimal (decimal n) n ∧ (n ≠ 0 → (decimal n).head? ≠ some 48) := by
  induction n using Nat.strongRecOn with
  | ind n ih =>
    unfold decimal
    by_cases h : n < 10
    · rw [if_pos h]
      refine ⟨⟨?_, ?_, ?_, by simp⟩, ?_⟩
      · intro c hc; simp at hc; omega
      · simp [digitsValue]
      · intro e; simp at e; rw [e]
      · intro h0 e; simp at e; omega
    · rw [if_neg h]
      obtain ⟨⟨h1, h2, h3, h4⟩, h5⟩ := ih (n / 10) (by omega)
      have h6 := h5 (by omega)
      obtain ⟨c, t, e⟩ : ∃ c t, decimal (n / 10) = c :: t := by
        cases hd : decimal (n / 10) with
        | nil => exact absurd hd h4
        | cons c t => exact ⟨c, t, rfl⟩
      have hh : (decimal (n / 10) ++ [48 + n % 10]).head? ≠ some 48 := by
        rw [e] at h6 ⊢
        exact h6
      refine ⟨⟨?_, ?_, fun hz => absurd hz hh, by simp⟩, fun _ => hh⟩
      · intro c hc
        rcases List.mem_append.1 hc with hc | hc
        · exact h1 c hc
        · simp at hc; omega
      · unfold digitsValue at h2 ⊢
        rw [List.foldl_append, h2]
        simp
        omega

/-- C71: the version string consists of the four 16-bit parts in the usual decimal notation, separated by dots. -/
theorem C71_string (ms ls : Nat) (hm : ms < 2 ^ 32) (hl : ls < 2 ^ 32) :
    ∃ a b c d : List Nat, versionString ms ls = a ++ [46] ++ (b ++ [46] ++ (c ++ [46] ++ d)) ∧
      Decimal a (ms / 65536) ∧ Decimal b (ms % 65536) ∧ Decimal c (ls / 65536) ∧ Decimal d (ls % 65536) ∧
      ms / 65536 < 65536 ∧ ls / 65536 < 65536 := by
  have e : ∀ n : Nat, n &&& 0xFFFF = n % 65536 := fun n => Nat.and_two_pow_sub_one_eq_mod n 16
  refine ⟨_, _, _, _, rfl, (decimal_spec _).1, ?_, (decimal_spec _).1, ?_, by omega, by omega⟩
  · rw [e]; exact (decimal_spec _).1
  · rw [e]; exact (decimal_spec _).1

theorem append_dot_inj {a b x y : List Nat} (ha : ∀ c ∈ a, c ≠ 46) (hb : ∀ c ∈ b, c ≠ 46)
    (h : a ++ [46] ++ x = b ++ [46] ++ y) : a = b ∧ x = y := by
  induction a generalizing b with
  | nil =>
    cases b with
    | nil => simpa using h
    | cons c b =>
      simp at h
      exact absurd h.1.symm (hb c List.mem_cons_self)
  | cons c a ih =>
    cases b with
    | nil =>
      simp at h
      exact absurd h.1 (ha c List.mem_cons_self)
    | cons c' b =>
      simp at h
      obtain ⟨h1, h2⟩ := h
      obtain ⟨h3, h4⟩ := ih (b := b) (fun c hc => ha c (List.mem_cons_of_mem _ hc)) (fun c hc => hb c (List.mem_cons_of_mem _ hc))
        (by simpa using h2)
      exact ⟨by rw [h1, h3], h4⟩

/-- C71: different versions have different strings. -/
theorem C71_string_injective (ms ls ms' ls' : Nat) (hm : ms < 2 ^ 32) (hl : ls < 2 ^ 32) (hm' : ms' < 2 ^ 32) (hl' : ls' < 2 ^ 32)
    (h : versionString ms ls = versionString ms' ls') : ms = ms' ∧ ls = ls' := by
  obtain ⟨a, b, c, d, e, h1, h2, h3, h4, -⟩ := C71_string ms ls hm hl
  obtain ⟨a', b', c', d', e', h1', h2', h3', h4', -⟩ := C71_string ms' ls' hm' hl'
  rw [e, e'] at h
  have nd : ∀ {s : List Nat} {n : Nat}, Decimal s n → ∀ c ∈ s, c ≠ 46 := fun hd c hc => by have := hd.digits c hc; omega
  obtain ⟨ea, h⟩ := append_dot_inj (nd h1) (nd h1') h
  obtain ⟨eb, h⟩ := append_dot_inj (nd h2) (nd h2') h
  obtain ⟨ec, ed⟩ := append_dot_inj (nd h3) (nd h3') h
  have va := h1.value; have vb := h2.value; have vc := h3.value; have vd := h4.value
  rw [ea, h1'.value] at va; rw [eb, h2'.value] at vb; rw [ec, h3'.value] at vc; rw [ed, h4'.value] at vd
  omega

/-- Four numbers in decimal notation with dots between them. -/
def Dotted (s : List Nat) (ms ls : Nat) : Prop :=
  ∃ a b c d : List Nat, s = a ++ [46] ++ (b ++ [46] ++ (c ++ [46] ++ d)) ∧
    Decimal a (ms / 65536) ∧ Decimal b (ms % 65536) ∧ Decimal c (ls / 65536) ∧ Decimal d (ls % 65536)

/-- C71: the string of the file version shows the fields of the file version, that of the product version those of the
    product version. -/
theorem C71_version_strings (v : FileVer) (h1 : v.verMS < 2 ^ 32) (h2 : v.verLS < 2 ^ 32) (h3 : v.prodMS < 2 ^ 32)
    (h4 : v.prodLS < 2 ^ 32) : Dotted v.fileString v.verMS v.verLS ∧ Dotted v.productString v.prodMS v.prodLS := by
  obtain ⟨a, b, c, d, e, g1, g2, g3, g4, -⟩ := C71_string v.verMS v.verLS h1 h2
  obtain ⟨a', b', c', d', e', g1', g2', g3', g4', -⟩ := C71_string v.prodMS v.prodLS h3 h4
  exact ⟨⟨a, b, c, d, e, g1, g2, g3, g4⟩, ⟨a', b', c', d', e', g1', g2', g3', g4'⟩⟩

/-- Different versions of product and file show. -/
example : ({ verMS := 0xA0000, verLS := 0x4A610E34, prodMS := 0x60001, prodLS := 0x1DB10000 } : FileVer).productString =
    [54, 46, 49, 46, 55, 54, 48, 49, 46, 48] := by decide +kernel

/-- "10.0.19041.3636" -/
example : ({ verMS := 0xA0000, verLS := 0x4A610E34 } : FileVer).fileString =
    [49, 48, 46, 48, 46, 49, 57, 48, 52, 49, 46, 51, 54, 51, 54] := by decide +kernel

end PE
