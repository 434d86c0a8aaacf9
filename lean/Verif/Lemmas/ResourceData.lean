/-
Lemmas for the readers of string tables and message tables.
-/
import Verif.Spec.ResourceData
import Verif.Lemmas.Map
import Verif.Lemmas.At
import Verif.Lemmas.ResourcesRead
import Verif.Lemmas.ResourcesSafe

namespace PE

/-! ### Characters and stripped strings -/

theorem fromUcs2_eq {w v : WStr} : fromUcs2 w = .ok v ↔ v = w ∧ UcsStr w := by
  unfold fromUcs2
  by_cases h : w.all isUcs2 = true
  · rw [if_pos h]
    rw [List.all_eq_true] at h
    constructor
    · intro e; cases e; exact ⟨rfl, fun c hc => (isUcs2_iff c).mp (h c hc)⟩
    · intro e; rw [e.1]
  · rw [if_neg h]
    constructor
    · intro e; cases e
    · intro e
      exact absurd (List.all_eq_true.mpr fun c hc => (isUcs2_iff c).mpr (e.2 c hc)) h

/-- An even number of bytes consists of characters. -/
theorem encUnits_dec : ∀ (n : Nat) (x : Bytes), x.length = 2 * n → encUnits (decUnits x) = x ∧ ∀ c ∈ decUnits x, c < 65536
  | 0, x, h => by
    have : x = [] := List.eq_nil_of_length_eq_zero (by omega)
    subst this
    exact ⟨rfl, by intro c hc; cases hc⟩
  | n + 1, x, h => by
    match x, h with
    | a :: b :: r, h =>
      obtain ⟨e, hr⟩ := encUnits_dec n r (by simp at h; omega)
      have hl : fromLE [a, b] < 65536 := by have := fromLE_lt [a, b]; simpa using this
      constructor
      · have e2 : encUnits (decUnits (a :: b :: r)) = leBytes 2 (fromLE [a, b]) ++ encUnits (decUnits r) := rfl
        rw [e2, e]
        have := leBytes_fromLE [a, b]
        rw [show ([a, b] : Bytes).length = 2 from rfl] at this
        rw [this]
        rfl
      · intro c hc
        have e2 : decUnits (a :: b :: r) = fromLE [a, b] :: decUnits r := rfl
        rw [e2] at hc
        rcases List.mem_cons.mp hc with rfl | hc
        · exact hl
        · exact hr c hc
    | [a], h => simp at h; omega

theorem UcsStr.lt {w : WStr} (h : UcsStr w) : ∀ c ∈ w, c < 65536 := fun c hc => by
  rcases h c hc with h | h <;> omega

theorem dropWhile_zeros {α : Type} [BEq α] [LawfulBEq α] [OfNat α 0] (x : List α) : ∃ n, x = List.replicate n 0 ++ x.dropWhile (· == 0) ∧
    ∀ a, (x.dropWhile (· == 0)).head? = some a → a ≠ 0 := by
  induction x with
  | nil => exact ⟨0, rfl, by intro a h; cases h⟩
  | cons y x ih =>
    rw [List.dropWhile_cons]
    by_cases hy : y = 0
    · subst hy
      rw [if_pos (by simp)]
      obtain ⟨n, e, ha⟩ := ih
      refine ⟨n + 1, ?_, ha⟩
      rw [List.replicate_succ, List.cons_append, ← e]
    · rw [if_neg (by simpa using hy)]
      refine ⟨0, rfl, fun a h => ?_⟩
      simp at h
      exact h ▸ hy

theorem stripped_strip {α : Type} [BEq α] [LawfulBEq α] [OfNat α 0] (x : List α) :
    (∃ n, x = (x.reverse.dropWhile (· == 0)).reverse ++ List.replicate n 0) ∧
    ∀ a, (x.reverse.dropWhile (· == 0)).reverse.getLast? = some a → a ≠ 0 := by
  obtain ⟨n, e, ha⟩ := dropWhile_zeros x.reverse
  refine ⟨⟨n, ?_⟩, fun a h => ha a (by rwa [List.getLast?_reverse] at h)⟩
  have := congrArg List.reverse e
  rw [List.reverse_reverse, List.reverse_append, List.reverse_replicate] at this
  exact this

theorem stripped_unique {α : Type} [Zero α] {x s s' : List α} (h : Stripped x s) (h' : Stripped x s') : s = s' := by
  obtain ⟨⟨n, e⟩, hl⟩ := h
  obtain ⟨⟨n', e'⟩, hl'⟩ := h'
  induction n generalizing n' x with
  | zero =>
    cases n' with
    | zero => rw [e] at e'; simpa using e'
    | succ n' =>
      rw [e, List.replicate_succ', ← List.append_assoc] at e'
      simp only [List.replicate_zero, List.append_nil] at e'
      rw [e'] at hl
      exact absurd rfl (hl 0 (by simp))
  | succ n ih =>
    cases n' with
    | zero =>
      rw [e', List.replicate_succ', ← List.append_assoc] at e
      simp only [List.replicate_zero, List.append_nil] at e
      rw [e] at hl'
      exact absurd rfl (hl' 0 (by simp))
    | succ n' =>
      rw [List.replicate_succ', ← List.append_assoc] at e e'
      rw [e] at e'
      exact ih (List.append_cancel_right e'.symm ▸ rfl) n' rfl

/-! ### Message tables -/

theorem messageText_noUB {d : Bytes} {pos len flags : Nat} (h4 : 4 ≤ len) (h : pos + len ≤ d.length) : NoUB (messageText d pos len flags) := by
  unfold messageText
  split
  · refine NoUB.bind (NoUB.throwIf _ _) fun _ _ => NoUB.bind ?_ fun _ _ => NoUB.bind (fromUcs2_noUB _) fun _ _ => NoUB.ok _
    rw [readN_ok (by omega)]; exact NoUB.ok _
  · refine NoUB.bind ?_ fun _ _ => NoUB.ok _
    rw [readN_ok (by omega)]; exact NoUB.ok _

theorem messageText_iff {d : Bytes} {pos : Nat} {t : Message} (h4 : 4 ≤ rd 2 d pos) (h : pos + rd 2 d pos ≤ d.length) :
    messageText d pos (rd 2 d pos) (rd 2 d (pos + 2)) = .ok t ↔ MessageAt d pos t := by
  unfold messageText
  generalize hl : rd 2 d pos = len at *
  by_cases hf : rd 2 d (pos + 2) % 2 = 1
  · rw [if_pos hf]
    by_cases ho : len % 2 = 1
    · rw [throwIf_pos ho]
      constructor
      · intro h; cases h
      · intro h; have := (h.wide hf).1; omega
    · rw [throwIf_neg ho, ok_bind, readN_ok (by omega), ok_bind]
      have e2 : 2 * ((len - 4) / 2) = len - 4 := by omega
      rw [e2]
      have hsl : (slice d (pos + 4) (len - 4)).length = 2 * ((len - 4) / 2) := by rw [slice_length_of_le (by omega), e2]
      obtain ⟨hed, hdl⟩ := encUnits_dec _ _ hsl
      constructor
      · intro h
        obtain ⟨w, hw, h⟩ := bind_ok_iff.mp h
        obtain ⟨rfl, hu⟩ := fromUcs2_eq.mp hw
        cases h
        exact ⟨by omega, by omega, fun h0 => by omega, fun _ => ⟨by omega, _, _, rfl, hu, stripped_strip _, by rw [hl]; exact hed.symm⟩⟩
      · intro h
        obtain ⟨_, w, s, rfl, hu, hs, he⟩ := h.wide hf
        rw [hl] at he
        rw [he, decUnits_enc hu.lt, fromUcs2_eq.mpr ⟨rfl, hu⟩, ok_bind]
        exact congrArg (fun z => Except.ok (Message.wide z)) (stripped_unique (stripped_strip _) hs)
  · rw [if_neg hf, readN_ok (by omega), ok_bind]
    constructor
    · intro h
      cases h
      exact ⟨by omega, by omega, fun _ => ⟨_, rfl, by rw [hl]; exact stripped_strip _⟩, fun h0 => by omega⟩
    · intro h
      obtain ⟨s, rfl, hs⟩ := h.ansi (by omega)
      rw [hl] at hs
      exact congrArg (fun z => Except.ok (Message.ansi z)) (stripped_unique (stripped_strip _) hs)

theorem messageEntries_iff {d : Bytes} {off high cur pos : Nat} {m m' : List (Nat × Message)} :
    messageEntries d off high cur pos m = .ok m' ↔ (high < cur ∧ m = m') ∨
      (cur ≤ high ∧ off + pos + 4 ≤ 4294967295 ∧ off + pos + rd 2 d (off + pos) ≤ 4294967295 ∧ ∃ t, MessageAt d (off + pos) t ∧
        messageEntries d off high (w32 (cur + 1)) (w32 (pos + rd 2 d (off + pos))) (mapAdd (fun a b => decide (a < b)) cur t m) = .ok m') := by
  rw [messageEntries]
  by_cases hc : cur ≤ high
  · rw [if_pos hc]
    constructor
    · intro h
      obtain ⟨_, h1, h⟩ := bind_ok_iff.mp h
      rw [throwIf_ok_iff] at h1
      obtain ⟨n1, h1⟩ := not_or.mp h1
      obtain ⟨n2, n3⟩ := not_or.mp h1
      unfold isSumSafe at n1 n2
      simp only [decide_eq_false_iff_not, Classical.not_not, Nat.not_lt] at n1 n2 n3
      rw [readU_ok (by omega), ok_bind, readU_ok (by omega), ok_bind] at h
      obtain ⟨_, h2, h⟩ := bind_ok_iff.mp h
      rw [throwIf_ok_iff] at h2
      obtain ⟨n4, h2⟩ := not_or.mp h2
      obtain ⟨n5, n6⟩ := not_or.mp h2
      unfold isSumSafe at n5
      simp only [decide_eq_false_iff_not, Classical.not_not, Nat.not_lt] at n4 n5 n6
      have hw : rd 2 d (off + pos) < 65536 := rd_lt 2 _ _
      obtain ⟨t, ht, h⟩ := bind_ok_iff.mp h
      rw [messageText_iff n4 n6] at ht
      rw [dif_pos ⟨by omega, by omega, by omega⟩] at h
      exact Or.inr ⟨hc, by omega, by omega, t, ht, h⟩
    · rintro (⟨h, _⟩ | ⟨_, n1, n2, t, ht, h⟩)
      · omega
      · have n4 := ht.min
        have n6 := ht.fits
        rw [throwIf_neg (by
          rintro (h | h | h)
          · unfold isSumSafe at h; simp at h; omega
          · unfold isSumSafe at h; simp at h; omega
          · omega), ok_bind, readU_ok (by omega), ok_bind, readU_ok (by omega), ok_bind, throwIf_neg (by
          rintro (h | h | h)
          · omega
          · unfold isSumSafe at h; simp at h; omega
          · omega), ok_bind, (messageText_iff n4 n6).mpr ht, ok_bind, dif_pos ⟨by omega, by omega, by omega⟩]
        exact h
  · rw [if_neg hc]
    constructor
    · intro h; cases h; exact Or.inl ⟨by omega, rfl⟩
    · rintro (⟨_, rfl⟩ | ⟨h, _⟩)
      · rfl
      · omega

theorem messageEntries_noUB (d : Bytes) (off high : Nat) : ∀ (k cur pos : Nat) (m : List (Nat × Message)), d.length + 1 - pos ≤ k →
    NoUB (messageEntries d off high cur pos m) := by
  intro k
  induction k with
  | zero =>
    intro cur pos m hk
    rw [messageEntries]
    split
    · refine NoUB.bind (NoUB.throwIf _ _) fun _ h1 => ?_
      rw [throwIf_ok_iff] at h1
      obtain ⟨n1, h1⟩ := not_or.mp h1
      obtain ⟨n2, n3⟩ := not_or.mp h1
      omega
    · exact NoUB.ok _
  | succ k ih =>
    intro cur pos m hk
    rw [messageEntries]
    split
    · refine NoUB.bind (NoUB.throwIf _ _) fun _ h1 => ?_
      rw [throwIf_ok_iff] at h1
      obtain ⟨n1, h1⟩ := not_or.mp h1
      obtain ⟨n2, n3⟩ := not_or.mp h1
      unfold isSumSafe at n1 n2
      simp only [decide_eq_false_iff_not, Classical.not_not, Nat.not_lt] at n1 n2 n3
      rw [readU_ok (by omega), ok_bind, readU_ok (by omega), ok_bind]
      refine NoUB.bind (NoUB.throwIf _ _) fun _ h2 => ?_
      rw [throwIf_ok_iff] at h2
      obtain ⟨n4, h2⟩ := not_or.mp h2
      obtain ⟨n5, n6⟩ := not_or.mp h2
      unfold isSumSafe at n5
      simp only [decide_eq_false_iff_not, Classical.not_not, Nat.not_lt] at n4 n5 n6
      have hw : rd 2 d (off + pos) < 65536 := rd_lt 2 _ _
      refine NoUB.bind (messageText_noUB n4 n6) fun t _ => ?_
      rw [dif_pos ⟨by omega, by omega, by omega⟩]
      refine ih _ _ _ ?_
      unfold w32
      omega
    · exact NoUB.ok _

/-- With the last number 2^32-1 the reader never succeeds. -/
theorem messageEntries_last (d : Bytes) (off high : Nat) (hh : 4294967295 ≤ high) : ∀ (k cur pos : Nat) (m m' : List (Nat × Message)),
    d.length + 1 - pos ≤ k → cur < 4294967296 → messageEntries d off high cur pos m ≠ .ok m' := by
  intro k
  induction k with
  | zero =>
    intro cur pos m m' hk hc h
    rcases messageEntries_iff.mp h with ⟨h, _⟩ | ⟨_, h1, h2, t, ht, h⟩
    · omega
    · have := ht.fits; have := ht.min; omega
  | succ k ih =>
    intro cur pos m m' hk hc h
    rcases messageEntries_iff.mp h with ⟨h, _⟩ | ⟨_, h1, h2, t, ht, h⟩
    · omega
    · have h4 := ht.fits
      have h5 := ht.min
      refine ih _ _ _ _ ?_ ?_ h
      · unfold w32; omega
      · unfold w32; omega

theorem messageEntries_sound {d : Bytes} {off high low : Nat} (hh : high < 4294967295) : ∀ (k j pos : Nat) (m m' : List (Nat × Message)),
    high + 1 - (low + j) ≤ k → off + pos = msgPos d off j → messageEntries d off high (low + j) pos m = .ok m' →
    MapSorted (fun a b => decide (a < b)) m →
    MapSorted (fun a b => decide (a < b)) m' ∧ ∀ id,
      (low + j ≤ id ∧ id ≤ high → ∃ t, MessageAt d (msgPos d off (id - low)) t ∧ mapFind id m' = some ((mapFind id m).getD t)) ∧
      (¬ (low + j ≤ id ∧ id ≤ high) → mapFind id m' = mapFind id m) := by
  intro k
  induction k with
  | zero =>
    intro j pos m m' hk hp h hs
    rcases messageEntries_iff.mp h with ⟨_, rfl⟩ | ⟨h0, _⟩
    · exact ⟨hs, fun id => ⟨fun h => by omega, fun _ => rfl⟩⟩
    · omega
  | succ k ih =>
    intro j pos m m' hk hp h hs
    rcases messageEntries_iff.mp h with ⟨hc, rfl⟩ | ⟨h0, h1, h2, t, ht, h⟩
    · exact ⟨hs, fun id => ⟨fun h => by omega, fun _ => rfl⟩⟩
    · have e1 : w32 (low + j + 1) = low + (j + 1) := by unfold w32; omega
      have e2 : w32 (pos + rd 2 d (off + pos)) = pos + rd 2 d (off + pos) := by unfold w32; omega
      rw [e1, e2] at h
      obtain ⟨hs', hf⟩ := ih (j + 1) _ _ _ (by omega) (by rw [msgPos, ← hp]; omega) h (mapAdd_sorted natOrd _ _ hs)
      refine ⟨hs', fun id => ?_⟩
      obtain ⟨f1, f2⟩ := hf id
      have hins := mapFind_insert natOrd (low + j) t hs id
      by_cases hid : id = low + j
      · rw [if_pos hid] at hins
        refine ⟨fun _ => ⟨t, ?_, ?_⟩, fun h => by omega⟩
        · rw [hid, Nat.add_sub_cancel_left, ← hp]; exact ht
        · rw [f2 (by omega), hins, hid]
      · rw [if_neg hid] at hins
        refine ⟨fun hr => ?_, fun hr => ?_⟩
        · obtain ⟨t', a, b⟩ := f1 (by omega)
          rw [hins] at b
          exact ⟨t', a, b⟩
        · rw [f2 (by omega), hins]

theorem messageEntries_complete {d : Bytes} {off high low : Nat} (hh : high < 4294967295) (hd : d.length < 4294967296) :
    ∀ (k j pos : Nat) (m : List (Nat × Message)), high + 1 - (low + j) ≤ k → off + pos = msgPos d off j →
    (∀ i, j ≤ i → low + i ≤ high → ∃ t, MessageAt d (msgPos d off i) t) → ∃ m', messageEntries d off high (low + j) pos m = .ok m' := by
  intro k
  induction k with
  | zero =>
    intro j pos m hk hp h
    exact ⟨m, messageEntries_iff.mpr (Or.inl ⟨by omega, rfl⟩)⟩
  | succ k ih =>
    intro j pos m hk hp h
    by_cases hc : low + j ≤ high
    · obtain ⟨t, ht⟩ := h j (Nat.le_refl _) hc
      rw [← hp] at ht
      have h4 := ht.fits
      have h5 := ht.min
      obtain ⟨m', hm⟩ := ih (j + 1) (pos + rd 2 d (off + pos)) (mapAdd (fun a b => decide (a < b)) (low + j) t m) (by omega)
        (by rw [msgPos, ← hp]; omega) (fun i hi => h i (by omega))
      refine ⟨m', messageEntries_iff.mpr (Or.inr ⟨hc, by omega, by omega, t, ht, ?_⟩)⟩
      have e1 : w32 (low + j + 1) = low + (j + 1) := by unfold w32; omega
      have e2 : w32 (pos + rd 2 d (off + pos)) = pos + rd 2 d (off + pos) := by unfold w32; omega
      rw [e1, e2]
      exact hm
    · exact ⟨m, messageEntries_iff.mpr (Or.inl ⟨by omega, rfl⟩)⟩

theorem messageBlocks_iff {d : Bytes} {n i : Nat} {m m' : List (Nat × Message)} (h : 4 + 12 * (i + 1) ≤ d.length) :
    messageBlocks d (n + 1) i m = .ok m' ↔ blockOff d i ≤ d.length ∧ blockLow d i ≤ blockHigh d i ∧ ∃ m1,
      messageEntries d (blockOff d i) (blockHigh d i) (blockLow d i) 0 m = .ok m1 ∧ messageBlocks d n (i + 1) m1 = .ok m' := by
  rw [messageBlocks, readU_ok (by omega), ok_bind, readU_ok (by omega), ok_bind, readU_ok (by omega), ok_bind]
  rw [show 4 + 12 * i + 4 = 8 + 12 * i by omega, show 4 + 12 * i + 8 = 12 + 12 * i by omega]
  constructor
  · intro h
    obtain ⟨_, h1, h⟩ := bind_ok_iff.mp h
    rw [throwIf_ok_iff] at h1
    obtain ⟨n1, n2⟩ := not_or.mp h1
    obtain ⟨m1, h2, h⟩ := bind_ok_iff.mp h
    exact ⟨Nat.not_lt.mp n1, Nat.not_lt.mp n2, m1, h2, h⟩
  · rintro ⟨n1, n2, m1, h1, h2⟩
    unfold blockOff at n1 h1
    unfold blockHigh blockLow at n2 h1
    rw [throwIf_neg (by omega), ok_bind, h1, ok_bind, h2]

theorem messageBlocks_noUB {d : Bytes} : ∀ (n i : Nat) (m : List (Nat × Message)), 4 + 12 * (i + n) ≤ d.length → NoUB (messageBlocks d n i m)
  | 0, i, m, _ => NoUB.ok _
  | n + 1, i, m, h => by
    rw [messageBlocks, readU_ok (by omega), ok_bind, readU_ok (by omega), ok_bind, readU_ok (by omega), ok_bind]
    refine NoUB.bind (NoUB.throwIf _ _) fun _ _ => NoUB.bind (messageEntries_noUB d _ _ _ _ _ _ (Nat.le_refl _)) fun m1 _ => ?_
    exact messageBlocks_noUB n (i + 1) m1 (by omega)

theorem blockHigh_lt {d : Bytes} {i : Nat} : blockHigh d i < 4294967296 := rd_lt 4 _ _
theorem blockLow_lt {d : Bytes} {i : Nat} : blockLow d i < 4294967296 := rd_lt 4 _ _

theorem messageBlocks_sound {d : Bytes} : ∀ (n i : Nat) (m m' : List (Nat × Message)), 4 + 12 * (i + n) ≤ d.length →
    messageBlocks d n i m = .ok m' → MapSorted (fun a b => decide (a < b)) m →
    MapSorted (fun a b => decide (a < b)) m' ∧
    (∀ k, i ≤ k → k < i + n → blockOff d k ≤ d.length ∧ blockLow d k ≤ blockHigh d k ∧ blockHigh d k < 4294967295) ∧
    ∀ id,
      ((∀ k, i ≤ k → k < i + n → ¬ InBlock d k id) → mapFind id m' = mapFind id m) ∧
      (mapFind id m ≠ none → mapFind id m' = mapFind id m) ∧
      (∀ k, i ≤ k → k < i + n → InBlock d k id → (∀ k', i ≤ k' → k' < k → ¬ InBlock d k' id) → mapFind id m = none →
        ∃ t, MessageAt d (msgPos d (blockOff d k) (id - blockLow d k)) t ∧ mapFind id m' = some t) := by
  intro n
  induction n with
  | zero =>
    intro i m m' hl h hs
    cases h
    exact ⟨hs, fun k h1 h2 => by omega, fun id => ⟨fun _ => rfl, fun _ => rfl, fun k h1 h2 => by omega⟩⟩
  | succ n ih =>
    intro i m m' hl h hs
    obtain ⟨b1, b2, m1, h1, h2⟩ := (messageBlocks_iff (by omega)).mp h
    have hh : blockHigh d i < 4294967295 := by
      have := blockHigh_lt (d := d) (i := i)
      rcases Nat.lt_or_ge (blockHigh d i) 4294967295 with h | h
      · exact h
      · exact absurd h1 (messageEntries_last d _ _ h _ _ _ _ _ (Nat.le_refl _) blockLow_lt)
    obtain ⟨s1, f1⟩ := messageEntries_sound hh _ 0 0 m m1 (Nat.le_refl _) rfl h1 hs
    obtain ⟨s2, g, f2⟩ := ih (i + 1) m1 m' (by omega) h2 s1
    refine ⟨s2, ?_, fun id => ⟨?_, ?_, ?_⟩⟩
    · intro k h1 h2
      by_cases hk : k = i
      · subst hk; exact ⟨b1, b2, hh⟩
      · exact g k (by omega) (by omega)
    · intro hn
      rw [(f2 id).1 fun k h1 h2 => hn k (by omega) (by omega), (f1 id).2 fun hc => hn i (by omega) (by omega) hc]
    · intro hne
      have e1 : mapFind id m1 = mapFind id m := by
        by_cases hc : blockLow d i + 0 ≤ id ∧ id ≤ blockHigh d i
        · obtain ⟨t, _, e⟩ := (f1 id).1 hc
          rw [e]
          cases hm : mapFind id m with
          | none => exact absurd hm hne
          | some v => rfl
        · exact (f1 id).2 hc
      rw [(f2 id).2.1 (by rw [e1]; exact hne), e1]
    · intro k h1 h2 hin hb hm
      by_cases hk : k = i
      · subst hk
        obtain ⟨t, ht, e⟩ := (f1 id).1 hin
        rw [hm] at e
        refine ⟨t, ht, ?_⟩
        rw [(f2 id).2.1 (by rw [e]; simp), e]
        rfl
      · refine (f2 id).2.2 k (by omega) (by omega) hin (fun k' h3 h4 => hb k' (by omega) h4) ?_
        rw [(f1 id).2 fun hc => hb i (Nat.le_refl _) (by omega) hc, hm]

theorem messageBlocks_complete {d : Bytes} (hd : d.length < 4294967296) : ∀ (n i : Nat) (m : List (Nat × Message)), 4 + 12 * (i + n) ≤ d.length →
    (∀ k, i ≤ k → k < i + n → blockOff d k ≤ d.length ∧ blockLow d k ≤ blockHigh d k ∧ blockHigh d k < 4294967295 ∧
      ∀ id, InBlock d k id → ∃ t, MessageAt d (msgPos d (blockOff d k) (id - blockLow d k)) t) →
    ∃ m', messageBlocks d n i m = .ok m' := by
  intro n
  induction n with
  | zero => intro i m _ _; exact ⟨m, rfl⟩
  | succ n ih =>
    intro i m hl h
    obtain ⟨b1, b2, b3, b4⟩ := h i (by omega) (by omega)
    obtain ⟨m1, h1⟩ := messageEntries_complete (low := blockLow d i) (off := blockOff d i) b3 hd _ 0 0 m (Nat.le_refl _) rfl (fun j _ hj => by
      have := b4 (blockLow d i + j) ⟨by omega, hj⟩
      rwa [Nat.add_sub_cancel_left] at this)
    obtain ⟨m', h2⟩ := ih (i + 1) m1 (by omega) (fun k h1 h2 => h k (by omega) (by omega))
    exact ⟨m', (messageBlocks_iff (by omega)).mpr ⟨b1, b2, m1, h1, h2⟩⟩

end PE
