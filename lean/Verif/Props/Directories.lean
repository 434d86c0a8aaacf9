/-
C12, C13: data directory table.
-/
import Verif.Model.Image
import Verif.Lemmas.Basic
namespace PE

/-- The directory table the C++ type guarantees (16 slots) with a usable count. -/
structure NtHdr.DirsOk (h : NtHdr) : Prop where
  slots : h.dirs.length = 16
  count : h.numRva ≤ 16

theorem NtHdr.dirAt_ok {h : NtHdr} {id : Nat} (hid : id < h.dirs.length) : h.dirAt id = .ok h.dirs[id] := by
  simp [NtHdr.dirAt, List.getElem?_eq_getElem hid]

theorem NtHdr.directoryExists_eq {h : NtHdr} (ho : h.DirsOk) (hpos : 1 ≤ h.numRva) (id : Nat) :
    h.directoryExists id = .ok (decide (id < h.numRva) && decide ((h.dirs[id]?.getD (0, 0)).1 ≠ 0)) := by
  have h1 := ho.slots
  have h2 := ho.count
  unfold NtHdr.directoryExists sub32
  by_cases hid : id < h.numRva
  · rw [if_pos (by omega), NtHdr.dirAt_ok (by omega), ok_bind]
    simp [hid, List.getElem?_eq_getElem (show id < h.dirs.length by omega), bne]
    rfl
  · rw [if_neg (by omega)]; simp [hid]

/-! ### C12: directory accessors are consistent -/

/-- C12 (existence): with at least one directory, `directory_exists(id)` tells exactly whether slot `id`
    is inside the table and has a non-zero address, and then both getters succeed.
    Missing for the full claim: a header with NumberOfRvaAndSizes = 0, see
    `C12_exists_but_get_throws`, and counts above 16, see `C12_count_above_16_is_ub`. -/
theorem C12_exists_then_get_partial (h : NtHdr) (ho : h.DirsOk) (hpos : 1 ≤ h.numRva) (id : Nat) :
    h.directoryExists id = .ok true ↔
      ∃ rva size, h.getDirRva id = .ok rva ∧ rva ≠ 0 ∧ h.getDirSize id = .ok size := by
  have h1 := ho.slots
  have h2 := ho.count
  rw [NtHdr.directoryExists_eq ho hpos]
  unfold NtHdr.getDirRva NtHdr.getDirSize
  by_cases hid : id < h.numRva
  · rw [if_neg (by omega), if_neg (by omega), NtHdr.dirAt_ok (by omega)]
    simp [hid, List.getElem?_eq_getElem (show id < h.dirs.length by omega)]
  · rw [if_pos (by omega)]; simp [hid]

/-- C12 (set, then get): the written value is read back, every other directory and every other header
    field is untouched; setting throws exactly for ids outside the table. -/
theorem C12_set_get (h : NtHdr) (ho : h.DirsOk) (id v : Nat) :
    (id < h.numRva → ∃ h' h'', h.setDirRva id v = .ok h' ∧ h'.getDirRva id = .ok v ∧
      h'.getDirSize id = h.getDirSize id ∧
      h.setDirSize id v = .ok h'' ∧ h''.getDirSize id = .ok v ∧ h''.getDirRva id = h.getDirRva id ∧
      (∀ j, j ≠ id → h'.getDirRva j = h.getDirRva j ∧ h'.getDirSize j = h.getDirSize j ∧
        h''.getDirRva j = h.getDirRva j ∧ h''.getDirSize j = h.getDirSize j) ∧
      { h' with dirs := h.dirs } = h ∧ { h'' with dirs := h.dirs } = h ∧ h'.DirsOk ∧ h''.DirsOk) ∧
    (¬ id < h.numRva → h.setDirRva id v = .error (.exn .directoryDoesNotExist) ∧
      h.setDirSize id v = .error (.exn .directoryDoesNotExist) ∧
      h.getDirRva id = .error (.exn .directoryDoesNotExist) ∧
      h.getDirSize id = .error (.exn .directoryDoesNotExist)) := by
  have h1 := ho.slots
  have h2 := ho.count
  constructor
  · intro hid
    refine ⟨{ h with dirs := h.dirs.set id (v, (h.dirs[id]).2) },
      { h with dirs := h.dirs.set id ((h.dirs[id]).1, v) }, ?_, ?_, ?_, ?_, ?_, ?_, ?_, rfl, rfl, ?_, ?_⟩
    · unfold NtHdr.setDirRva NtHdr.dirSet
      rw [if_neg (by omega), NtHdr.dirAt_ok (by omega), ok_bind, if_pos (by omega)]
    · unfold NtHdr.getDirRva
      dsimp only
      rw [if_neg (by omega), NtHdr.dirAt_ok (by simp; omega)]; simp
    · unfold NtHdr.getDirSize
      dsimp only
      rw [if_neg (by omega), if_neg (by omega), NtHdr.dirAt_ok (by simp; omega), NtHdr.dirAt_ok (by omega)]; simp
    · unfold NtHdr.setDirSize NtHdr.dirSet
      rw [if_neg (by omega), NtHdr.dirAt_ok (by omega), ok_bind, if_pos (by omega)]
    · unfold NtHdr.getDirSize
      dsimp only
      rw [if_neg (by omega), NtHdr.dirAt_ok (by simp; omega)]; simp
    · unfold NtHdr.getDirRva
      dsimp only
      rw [if_neg (by omega), if_neg (by omega), NtHdr.dirAt_ok (by simp; omega), NtHdr.dirAt_ok (by omega)]; simp
    · intro j hj
      unfold NtHdr.getDirRva NtHdr.getDirSize NtHdr.dirAt
      simp [List.getElem?_set_ne (Ne.symm hj)]
    · exact ⟨by simp [h1], h2⟩
    · exact ⟨by simp [h1], h2⟩
  · intro hid
    unfold NtHdr.setDirRva NtHdr.setDirSize NtHdr.getDirRva NtHdr.getDirSize
    rw [if_pos (by omega), if_pos (by omega), if_pos (by omega), if_pos (by omega)]
    exact ⟨rfl, rfl, rfl, rfl⟩

/-- C12 (remove): afterwards the directory does not exist; all other directories are unchanged. -/
theorem C12_remove (h : NtHdr) (ho : h.DirsOk) (hpos : 1 ≤ h.numRva) (id : Nat) :
    ∃ h', h.removeDirectory id = .ok h' ∧ h'.directoryExists id = .ok false ∧ h'.numRva = h.numRva ∧
      ∀ j, j ≠ id → h'.getDirRva j = h.getDirRva j ∧ h'.getDirSize j = h.getDirSize j ∧
        h'.directoryExists j = h.directoryExists j := by
  have h1 := ho.slots
  have h2 := ho.count
  have ex := NtHdr.directoryExists_eq ho hpos
  by_cases hid : h.directoryExists id = .ok true
  · have hlt : id < h.numRva := by
      rw [ex] at hid; simp at hid; exact hid.1
    have key : ∀ h' : NtHdr, h'.dirs = h.dirs.set id (0, 0) → h'.numRva = h.numRva →
        h'.directoryExists id = .ok false ∧ h'.numRva = h.numRva ∧
        ∀ j, j ≠ id → h'.getDirRva j = h.getDirRva j ∧ h'.getDirSize j = h.getDirSize j ∧
        h'.directoryExists j = h.directoryExists j := by
      intro h' e1 e2
      have ho' : h'.DirsOk := ⟨by rw [e1]; simp [h1], by omega⟩
      refine ⟨?_, e2, ?_⟩
      · rw [NtHdr.directoryExists_eq ho' (by omega), e1]
        simp [List.getElem?_set_self (show id < h.dirs.length by omega)]
      · intro j hj
        rw [NtHdr.directoryExists_eq ho' (by omega), ex]
        unfold NtHdr.getDirRva NtHdr.getDirSize NtHdr.dirAt
        rw [e1, e2, List.getElem?_set_ne (Ne.symm hj)]
        exact ⟨rfl, rfl, rfl⟩
    unfold NtHdr.removeDirectory NtHdr.dirSet
    rw [hid, ok_bind, if_pos rfl, if_pos (by omega), ok_bind]
    split
    · exact ⟨_, rfl, key _ rfl rfl⟩
    · split
      · exact ⟨_, rfl, key _ rfl rfl⟩
      · exact ⟨_, rfl, key _ rfl rfl⟩
  · have hf : h.directoryExists id = .ok false := by
      rw [ex] at hid ⊢
      cases hb : (decide (id < h.numRva) && decide ((h.dirs[id]?.getD (0, 0)).1 ≠ 0))
      · rfl
      · rw [hb] at hid; exact absurd rfl hid
    refine ⟨h, ?_, hf, rfl, fun j _ => ⟨rfl, rfl, rfl⟩⟩
    unfold NtHdr.removeDirectory
    rw [hf]; rfl

theorem testBit_clear16 {c m k : Nat} (hc : c < 2 ^ 16) (hm : ∀ i, i < 16 → m.testBit i = decide (i ≠ k)) (i : Nat) :
    (c &&& m).testBit i = (c.testBit i && decide (i ≠ k)) := by
  rw [Nat.testBit_and]
  by_cases h : i < 16
  · rw [hm i h]
  · have : c.testBit i = false :=
      Nat.testBit_lt_two_pow (Nat.lt_of_lt_of_le hc (Nat.pow_le_pow_right (by decide) (by omega)))
    rw [this]; rfl

theorem testBit_one_or (c i : Nat) : (c ||| 1).testBit i = (c.testBit i || decide (i = 0)) := by
  rw [Nat.testBit_or]
  congr 1
  cases i with
  | zero => rfl
  | succ i => simp [Nat.testBit_succ]

/-- C12 (remove, flags): removing a directory that does not exist changes nothing. Otherwise nothing but the directory
    entry changes, except that removing the relocations marks the image as not relocatable (bit 0 of the
    characteristics set, bit 6 "dynamic base" of the DLL characteristics cleared), and removing the exports makes it
    no DLL any more (bit 13 of the characteristics cleared). -/
theorem C12_remove_flags (h h' : NtHdr) (hc : h.chars < 2 ^ 16) (hd : h.dllChars < 2 ^ 16)
    (id : Nat) (hr : h.removeDirectory id = .ok h') :
    (h.directoryExists id = .ok false ∧ h' = h) ∨
    (h.directoryExists id = .ok true ∧ h'.dirs = h.dirs.set id (0, 0) ∧
      { h' with dirs := h.dirs, chars := h.chars, dllChars := h.dllChars } = h ∧
      (∀ i, h'.chars.testBit i =
        if id = 5 then h.chars.testBit i || decide (i = 0)
        else if id = 0 then h.chars.testBit i && decide (i ≠ 13)
        else h.chars.testBit i) ∧
      (∀ i, h'.dllChars.testBit i =
        if id = 5 then h.dllChars.testBit i && decide (i ≠ 6) else h.dllChars.testBit i)) := by
  unfold NtHdr.removeDirectory at hr
  obtain ⟨b, hb, hr⟩ := bind_ok_iff.mp hr
  cases b with
  | false => left; exact ⟨hb, (Except.ok.inj hr).symm⟩
  | true =>
    right
    rw [if_pos rfl] at hr
    obtain ⟨g, hg, hr⟩ := bind_ok_iff.mp hr
    have hgd : g = { h with dirs := h.dirs.set id (0, 0) } := by
      unfold NtHdr.dirSet at hg
      split at hg
      · exact (Except.ok.inj hg).symm
      · simp at hg
    subst hgd
    refine ⟨hb, ?_⟩
    rw [show dirBaseReloc = 5 from rfl, show dirExport = 0 from rfl] at hr
    by_cases h5 : id = 5
    · rw [if_pos h5] at hr
      cases hr
      refine ⟨rfl, rfl, fun i => ?_, fun i => ?_⟩
      · rw [if_pos h5]; exact testBit_one_or _ _
      · rw [if_pos h5]; exact testBit_clear16 hd (by decide) i
    · rw [if_neg h5] at hr
      by_cases h0 : id = 0
      · rw [if_pos h0] at hr
        cases hr
        refine ⟨rfl, rfl, fun i => ?_, fun i => ?_⟩
        · rw [if_neg h5, if_pos h0]; exact testBit_clear16 hc (by decide) i
        · rw [if_neg h5]; rfl
      · rw [if_neg h0] at hr
        cases hr
        refine ⟨rfl, rfl, fun i => ?_, fun i => ?_⟩
        · rw [if_neg h5, if_neg h0]
        · rw [if_neg h5]

/-- A DLL with relocations and exports. -/
def sampleDll : NtHdr := { numRva := 16, chars := 0x2102, dllChars := 0x140, dirs :=
  [(0x3000, 40), (0, 0), (0, 0), (0, 0), (0, 0), (0x4000, 12)] ++ List.replicate 10 (0, 0) }

/-- Both flags change, one after the other. -/
example : ∃ h1 h2, sampleDll.removeDirectory 5 = .ok h1 ∧ h1.removeDirectory 0 = .ok h2 ∧
    (h1.chars = 0x2103 ∧ h1.dllChars = 0x100) ∧ h2.chars = 0x103 := by
  obtain ⟨h1, e1, e2⟩ := exists_of_okAnd (x := sampleDll.removeDirectory 5)
    (f := fun h1 => decide (h1.chars = 0x2103 ∧ h1.dllChars = 0x100) &&
      okAnd (h1.removeDirectory 0) (fun h2 => decide (h2.chars = 0x103))) (by decide +kernel)
  simp only [Bool.and_eq_true, decide_eq_true_eq] at e2
  obtain ⟨h2, e3, e4⟩ := exists_of_okAnd e2.2
  exact ⟨h1, h2, e1, e3, e2.1, of_decide_eq_true e4⟩

/-- C12 is false with NumberOfRvaAndSizes = 0: the directory "exists" but asking for it throws. -/
theorem C12_exists_but_get_throws : ∃ (h : NtHdr) (id : Nat), h.DirsOk ∧
    h.directoryExists id = .ok true ∧ h.getDirRva id = .error (.exn .directoryDoesNotExist) :=
  ⟨{ numRva := 0, dirs := (0x1000, 8) :: List.replicate 15 (0, 0) }, 0, ⟨rfl, by decide⟩, by decide, by decide⟩

/-- With a count above 16 (settable by the user) the accessors index outside of the 16-slot array. -/
theorem C12_count_above_16_is_ub : ∃ (h : NtHdr) (id : Nat), h.dirs.length = 16 ∧
    h.getDirRva id = .error (.ub .oobIndex) :=
  ⟨{ numRva := 17 }, 16, rfl, by decide⟩

/-- A header with an export and a relocation directory, used as witness. -/
def demoNt : NtHdr :=
  { numRva := 16, dirs := (0x1000, 40) :: List.replicate 4 (0, 0) ++ (0x3000, 12) :: List.replicate 10 (0, 0) }

example : demoNt.DirsOk ∧ 1 ≤ demoNt.numRva ∧ demoNt.directoryExists 5 = .ok true :=
  ⟨⟨rfl, by decide⟩, by decide, by decide⟩

/-! ### C13: stripping trailing directories -/

theorem stripLoop_spec {h : NtHdr} (h1 : h.dirs.length = 16) (minCount : Nat) (iat : Bool) :
    ∀ n, n ≤ 16 → ∃ k, h.stripLoop minCount iat n = .ok k ∧ k ≤ n ∧
      (∀ i, k ≤ i → i < n → (h.dirs[i]?.getD (0, 0)).1 = 0 ∨ (i = dirIat ∧ iat = true)) ∧
      min (minCount - 1) n ≤ k ∧
      (0 < k → minCount ≤ k → (h.dirs[k-1]?.getD (0, 0)).1 ≠ 0 ∧ ¬ (k - 1 = dirIat ∧ iat = true)) := by
  intro n
  induction n with
  | zero => intro _; exact ⟨0, rfl, Nat.le_refl _, by intro i; omega, by omega, by omega⟩
  | succ i ih =>
    intro hn
    unfold NtHdr.stripLoop
    rw [NtHdr.dirAt_ok (by omega), ok_bind]
    have hg : h.dirs[i]?.getD (0, 0) = h.dirs[i] := by
      rw [List.getElem?_eq_getElem (by omega)]; rfl
    split
    · next hc =>
      refine ⟨i + 1, rfl, Nat.le_refl _, by intro j; omega, by omega, ?_⟩
      intro _ _
      simp only [Nat.add_sub_cancel, hg]
      refine ⟨hc.1, ?_⟩
      rintro ⟨a, b⟩
      rcases hc.2 with h | h
      · exact h a
      · rw [b] at h; cases h
    · next hc =>
      have hempty : (h.dirs[i]?.getD (0, 0)).1 = 0 ∨ (i = dirIat ∧ iat = true) := by
        rw [hg]
        by_cases h0 : (h.dirs[i]).1 = 0
        · exact .inl h0
        · right
          by_cases hi : i = dirIat
          · refine ⟨hi, ?_⟩
            cases iat
            · exact absurd ⟨h0, .inr rfl⟩ hc
            · rfl
          · exact absurd ⟨h0, .inl hi⟩ hc
      split
      · refine ⟨i + 1, rfl, Nat.le_refl _, by intro j; omega, by omega, by omega⟩
      · next hm =>
        obtain ⟨k, e, k1, k2, k3, k4⟩ := ih (by omega)
        refine ⟨k, e, by omega, ?_, by omega, k4⟩
        intro j hj1 hj2
        by_cases hji : j = i
        · subst hji; exact hempty
        · exact k2 j hj1 (by omega)

/-- C13: the call succeeds and returns the new count; it never increases the count; every dropped
    directory is empty (or is the IAT and the caller asked for it); all slots keep their contents and no
    other header field changes; at least `min (min_count - 1) old_count` entries remain; and unless
    `min_count` stopped it, the last remaining directory is non-empty.
    Missing for the full claim: one more entry should remain, see `C13_one_entry_too_few`. -/
theorem C13_strip_partial (h : NtHdr) (ho : h.DirsOk) (minCount : Nat) (iat : Bool) :
    ∃ k, h.stripDataDirectories minCount iat = .ok ({ h with numRva := k }, k) ∧ k ≤ h.numRva ∧
      (∀ i, k ≤ i → i < h.numRva → (h.dirs[i]?.getD (0, 0)).1 = 0 ∨ (i = dirIat ∧ iat = true)) ∧
      min (minCount - 1) h.numRva ≤ k ∧
      (0 < k → minCount ≤ k → (h.dirs[k-1]?.getD (0, 0)).1 ≠ 0 ∧ ¬ (k - 1 = dirIat ∧ iat = true)) := by
  obtain ⟨k, e, k1, k2, k3, k4⟩ := stripLoop_spec ho.slots minCount iat h.numRva ho.count
  refine ⟨k, ?_, k1, k2, k3, k4⟩
  unfold NtHdr.stripDataDirectories
  rw [e, ok_bind]
  split
  · next hk =>
    have : h.numRva = k := by have := ho.count; omega
    rw [← this, ← hk, ← this]
  · rfl

/-- C13 is off by one: asking for at least one entry leaves none. -/
theorem C13_one_entry_too_few : ∃ (h h' : NtHdr) (k : Nat), h.DirsOk ∧
    h.stripDataDirectories 1 true = .ok (h', k) ∧ k < min 1 h.numRva :=
  ⟨{ numRva := 16 }, { numRva := 0 }, 0, ⟨rfl, by decide⟩, by decide, by decide⟩

example : demoNt.stripDataDirectories 0 true = .ok ({ demoNt with numRva := 6 }, 6) := by decide

end PE
