/-
C36, C37: icon and cursor files that are added and read again.
-/
import Verif.Lemmas.IconsWrite

namespace PE

/-! ### The new entries of the group -/

theorem groupEntry_num {k : IcKind} {e : Bytes} {num : Nat} (he : 12 ≤ e.length) (hn : num < 65536) : rd 2 (k.groupEntry e num) 12 = num := by
  have hw : num % 256 ^ 2 = num := Nat.mod_eq_of_lt hn
  cases k with
  | icon =>
    unfold IcKind.groupEntry
    dsimp only
    rw [rd_skip (by rw [slice_length_of_le (by omega)]; omega), slice_length_of_le (by omega), rd_here', hw]
  | cursor =>
    unfold IcKind.groupEntry
    dsimp only
    rw [rd_skip (by simp only [List.length_append, leBytes_length]; omega)]
    simp only [List.length_append, leBytes_length]
    rw [rd_here', hw]

theorem rd1_lt (b : Bytes) (o : Nat) : rd 1 b o < 256 := rd_lt 1 b o

/-- Storing and reading a description. -/
theorem fileEntry_groupEntry {k : IcKind} {f : Bytes} (hf : IcoFile f) {j num : Nat} (hj : j < rd 2 f 4) :
    (k.fileEntry (k.groupEntry (slice f (6 + 16 * j) 16) num) (k.storedOf f j), k.bodyOf (k.storedOf f j)) =
      k.shown (slice f (6 + 16 * j) 12, slice f (rd 4 f (6 + 16 * j + 12)) (rd 4 f (6 + 16 * j + 8))) := by
  have hh := hf.headers
  have hl : (slice f (6 + 16 * j) 16).length = 16 := slice_length_of_le (by omega)
  cases k with
  | icon =>
    show (slice (slice (slice f (6 + 16 * j) 16) 0 12 ++ leBytes 2 num) 0 12, _) = _
    rw [slice_append_here (by rw [slice_length_of_le (by omega)]), slice_slice (by omega)]
    rfl
  | cursor =>
    have hl4 : (slice f (6 + 16 * j + 4) 4).length = 4 := slice_length_of_le (by omega)
    have e1 : IcKind.bodyOf .cursor (IcKind.storedOf .cursor f j) = slice f (rd 4 f (6 + 16 * j + 12)) (rd 4 f (6 + 16 * j + 8)) := by
      show (slice f (6 + 16 * j + 4) 4 ++ _).drop 4 = _
      rw [List.drop_append, List.drop_eq_nil_of_le (by omega), hl4, List.nil_append]
      rfl
    have e2 : slice (IcKind.storedOf .cursor f j) 0 4 = slice f (6 + 16 * j + 4) 4 := slice_append_here (by omega)
    refine Prod.ext ?_ e1
    show IcKind.fileEntry .cursor _ _ = cursorDesc (slice f (6 + 16 * j) 12)
    unfold IcKind.fileEntry cursorDesc
    dsimp only
    rw [e2]
    have w0 := rd1_lt f (6 + 16 * j + 0)
    have w1 := rd1_lt f (6 + 16 * j + 1)
    have w8 : rd 4 f (6 + 16 * j + 8) < 2 ^ 32 := rd_lt 4 f _
    have g0 : rd 2 (IcKind.groupEntry .cursor (slice f (6 + 16 * j) 16) num) 0 = rd 1 f (6 + 16 * j + 0) := by
      unfold IcKind.groupEntry
      dsimp only
      simp only [List.append_assoc]
      rw [rd_here, rd_slice (by omega), Nat.mod_eq_of_lt (by omega)]
    have g2 : rd 2 (IcKind.groupEntry .cursor (slice f (6 + 16 * j) 16) num) 2 = rd 1 f (6 + 16 * j + 1) * 2 := by
      unfold IcKind.groupEntry
      dsimp only
      simp only [List.append_assoc]
      rw [rd_leBytes_skip (by omega), rd_here, rd_slice (by omega), Nat.mod_eq_of_lt (by omega)]
    have g8 : rd 4 (IcKind.groupEntry .cursor (slice f (6 + 16 * j) 16) num) 8 = w32 (rd 4 f (6 + 16 * j + 8) + 4) := by
      unfold IcKind.groupEntry
      dsimp only
      simp only [List.append_assoc]
      rw [rd_leBytes_skip (by omega), rd_leBytes_skip (by omega), rd_leBytes_skip (by omega), rd_leBytes_skip (by omega), rd_here,
        rd_slice (by omega)]
      unfold w32
      rw [Nat.mod_eq_of_lt (by omega)]
    rw [g0, g2, g8, rd_slice (by omega), rd_slice (by omega), slice_slice (by omega)]
    have s1 : rd 1 f (6 + 16 * j + 0) % 256 = rd 1 f (6 + 16 * j + 0) := Nat.mod_eq_of_lt w0
    have s2 : rd 1 f (6 + 16 * j + 1) * 2 % 256 / 2 = rd 1 f (6 + 16 * j + 1) % 128 := by omega
    have s3 : sub32 (w32 (rd 4 f (6 + 16 * j + 8) + 4)) 4 = rd 4 f (6 + 16 * j + 8) := by unfold sub32 w32; omega
    rw [s1, s2, s3, leBytes_rd (w := 4) (by omega), leBytes_zero, show slice f (6 + 16 * j + 4) 8 = slice f (6 + 16 * j + 4) 4 ++ slice f (6 + 16 * j + 4 + 4) 4 from slice_add (m := 4) (n := 4)]
    simp only [List.append_assoc, Nat.add_assoc]
    rfl

theorem newEntries_length {k : IcKind} {f : Bytes} (hf : IcoFile f) (nums : List Nat) : ∀ n i, i + n ≤ rd 2 f 4 →
    (newEntries k f nums i n).length = 14 * n := by
  intro n
  induction n with
  | zero => intro i _; rfl
  | succ n ih =>
    intro i hi
    have := ih (i + 1) (by omega)
    unfold newEntries at *
    have hh := hf.headers
    rw [List.range'_succ, List.map_cons, List.flatten_cons, List.length_append, this,
      groupEntry_length (by rw [slice_length_of_le (by omega)]; omega)]
    omega

theorem newEntries_at {k : IcKind} {f : Bytes} (hf : IcoFile f) (nums : List Nat) : ∀ n i j, i + n ≤ rd 2 f 4 → j < n →
    slice (newEntries k f nums i n) (14 * j) 14 = k.groupEntry (slice f (6 + 16 * (i + j)) 16) (nums.getD (i + j) 0) := by
  intro n
  induction n with
  | zero => intro i j _ hj; omega
  | succ n ih =>
    intro i j hi hj
    have hh := hf.headers
    have hg : (k.groupEntry (slice f (6 + 16 * i) 16) (nums.getD i 0)).length = 14 :=
      groupEntry_length (by rw [slice_length_of_le (by omega)]; omega)
    have e : newEntries k f nums i (n + 1) = k.groupEntry (slice f (6 + 16 * i) 16) (nums.getD i 0) ++ newEntries k f nums (i + 1) n := by
      unfold newEntries
      rw [List.range'_succ, List.map_cons, List.flatten_cons]
    rw [e]
    cases j with
    | zero => rw [Nat.mul_zero, slice_append_here hg.symm]; rfl
    | succ j =>
      rw [slice_append_right (by omega), hg, show 14 * (j + 1) - 14 = 14 * j by omega, ih (i + 1) j (by omega) (by omega),
        show i + 1 + j = i + (j + 1) by omega]

/-! ### Files -/

theorem icoFile_count {h : Bytes} {L : List (Bytes × Bytes)} (hh : h.length = 4) : rd 2 (icoFile h L) 4 = L.length % 65536 := by
  unfold icoFile
  simp only [List.append_assoc]
  rw [rd_skip (by omega), hh]
  exact rd_here 2 _ _

theorem icoDir_length : ∀ (L : List (Bytes × Bytes)) (off : Nat), (∀ x ∈ L, x.1.length = 12) → (icoDir off L).length = 16 * L.length := by
  intro L
  induction L with
  | nil => intro _ _; rfl
  | cons x L ih =>
    intro off h
    rw [icoDir, List.length_append, List.length_append, leBytes_length, ih _ (fun y hy => h y (List.mem_cons_of_mem _ hy)),
      h x List.mem_cons_self, List.length_cons]
    omega

theorem icoDir_inj : ∀ (L L' : List (Bytes × Bytes)) (off : Nat), (∀ x ∈ L, x.1.length = 12) → (∀ x ∈ L', x.1.length = 12) →
    L.length = L'.length → icoDir off L = icoDir off L' → L.map Prod.fst = L'.map Prod.fst := by
  intro L
  induction L with
  | nil => intro L' _ _ _ hl _; cases L' with | nil => rfl | cons => cases hl
  | cons x L ih =>
    intro L' off h h' hl he
    cases L' with
    | nil => cases hl
    | cons x' L' =>
      rw [icoDir, icoDir, List.append_assoc, List.append_assoc] at he
      have hx : x.1 = x'.1 := (List.append_inj he (by rw [h x List.mem_cons_self, h' x' List.mem_cons_self])).1
      have h2 := (List.append_inj he (by rw [hx])).2
      rw [hx] at h2
      have h3 := List.append_cancel_left h2
      rw [List.map_cons, List.map_cons, hx, ih L' _ (fun y hy => h y (List.mem_cons_of_mem _ hy))
        (fun y hy => h' y (List.mem_cons_of_mem _ hy)) (by simpa using hl) h3]

theorem icoDir_congr : ∀ (L L' : List (Bytes × Bytes)) (off : Nat), L.map Prod.fst = L'.map Prod.fst → icoDir off L = icoDir off L' := by
  intro L
  induction L with
  | nil => intro L' _ h; cases L' with | nil => rfl | cons => cases h
  | cons x L ih =>
    intro L' off h
    cases L' with
    | nil => cases h
    | cons x' L' =>
      rw [List.map_cons, List.map_cons] at h
      injection h with h1 h2
      rw [icoDir, icoDir, h1, ih L' _ h2]

/-- A file determines what is needed to add further images. -/
theorem icoFile_more {h h' : Bytes} {L L' : List (Bytes × Bytes)} (hh : h.length = 4) (hh' : h'.length = 4) (hL : ∀ x ∈ L, x.1.length = 12)
    (hL' : ∀ x ∈ L', x.1.length = 12) (hl : L.length < 65536) (hl' : L'.length < 65536) (he : icoFile h L = icoFile h' L')
    (M : List (Bytes × Bytes)) : icoFile h (L ++ M) = icoFile h' (L' ++ M) := by
  have hc : L.length = L'.length := by
    have := icoFile_count (L := L) hh
    rw [he, icoFile_count hh', Nat.mod_eq_of_lt hl, Nat.mod_eq_of_lt hl'] at this
    exact this.symm
  unfold icoFile at he ⊢
  simp only [List.append_assoc] at he
  obtain ⟨e1, e2⟩ := List.append_inj he (by omega)
  rw [hc] at e2
  have e3 := List.append_cancel_left e2
  obtain ⟨e4, e5⟩ := List.append_inj e3 (by rw [icoDir_length _ _ hL, icoDir_length _ _ hL', hc])
  have e6 := icoDir_inj L L' _ hL hL' hc e4
  have e7 : (L ++ M).length = (L' ++ M).length := by rw [List.length_append, List.length_append, hc]
  rw [e1, e7, icoDir_congr (L ++ M) (L' ++ M) _ (by rw [List.map_append, List.map_append, e6])]
  congr 1
  rw [List.map_append, List.map_append, List.flatten_append, List.flatten_append, e5]

theorem fileEntry_length {k : IcKind} {g x : Bytes} (hg : 12 ≤ g.length) (hx : k = .cursor → 4 ≤ x.length) : (k.fileEntry g x).length = 12 := by
  cases k with
  | icon => exact slice_length_of_le (by omega)
  | cursor =>
    have := hx rfl
    unfold IcKind.fileEntry
    simp only [List.length_append, leBytes_length]
    rw [slice_length_of_le (by omega)]

/-! ### Adding -/

theorem img_ne_grp (k : IcKind) : k.grpType ≠ k.imgType := by cases k <;> decide

theorem imgData_ok {r : ResDir} {k : IcKind} {lang num : Nat} {x : Bytes} :
    r.imgData k lang num = .ok x ↔ ∃ cp, r.getData k.imgType (.id num) lang = .ok (cp, x) := by
  unfold ResDir.imgData
  rw [bind_ok_iff]
  constructor
  · rintro ⟨a, h1, h2⟩
    injection h2 with h2
    subst h2
    exact ⟨a.1, h1⟩
  · rintro ⟨cp, h⟩
    exact ⟨_, h, rfl⟩

/-- The start of the group: `h` are the first four bytes, `old` the entries that are there. -/
theorem icGroupStart_eq {k : IcKind} {f : Bytes} (hf : IcoFile f) (old : Option (Nat × Bytes)) (cp : Nat)
    (ho : ∀ x, old = some x → 6 + 14 * rd 2 x.2 4 ≤ x.2.length) :
    ∃ cp' base pre tail, icGroupStart k f (rd 2 f 4) old cp = .ok (cp', base, pre ++ tail) ∧ pre.length = 6 + 14 * base ∧
      tail.length = 14 * rd 2 f 4 ∧
      (∀ x, old = some x → cp' = x.1 ∧ base = rd 2 x.2 4 ∧ pre = x.2.take (6 + 14 * base)) ∧
      (old = none → cp' = cp ∧ base = 0 ∧ pre = slice f 0 6) := by
  have hl := hf.long
  cases old with
  | none =>
    refine ⟨cp, 0, slice f 0 6, zeros (rd 2 f 4 * 14), ?_, ?_, ?_, fun _ h => (by cases h), fun _ => ⟨rfl, rfl, rfl⟩⟩
    · unfold icGroupStart; dsimp only; rw [readN_ok (by omega), ok_bind]
    · rw [slice_length_of_le (by omega)]
    · rw [zeros_length]; omega
  | some x =>
    have hx := ho x rfl
    obtain ⟨c, d⟩ := x
    dsimp only at hx
    have hr : resize d (6 + (rd 2 d 4 + rd 2 f 4) * 14) = d.take (6 + 14 * rd 2 d 4) ++
        (resize d (6 + (rd 2 d 4 + rd 2 f 4) * 14)).drop (6 + 14 * rd 2 d 4) := by
      have h1 : (resize d (6 + (rd 2 d 4 + rd 2 f 4) * 14)).take (6 + 14 * rd 2 d 4) = d.take (6 + 14 * rd 2 d 4) := by
        unfold resize
        rw [List.take_append, List.take_take, List.length_take, show 6 + 14 * rd 2 d 4 - min (6 + (rd 2 d 4 + rd 2 f 4) * 14) d.length = 0 by omega,
          List.take_zero, List.append_nil]
        congr 1
        omega
      rw [← h1, List.take_append_drop]
    refine ⟨c, rd 2 d 4, d.take (6 + 14 * rd 2 d 4), (resize d (6 + (rd 2 d 4 + rd 2 f 4) * 14)).drop (6 + 14 * rd 2 d 4), ?_, ?_, ?_, ?_,
      fun h => (by cases h)⟩
    rotate_left
    · show (d.take (6 + 14 * rd 2 d 4)).length = _
      rw [List.length_take]; omega
    · show ((resize d (6 + (rd 2 d 4 + rd 2 f 4) * 14)).drop (6 + 14 * rd 2 d 4)).length = _
      rw [List.length_drop, resize_length]; omega
    · intro x hx; cases hx; exact ⟨rfl, rfl, rfl⟩
    · rw [← hr]
      unfold icGroupStart
      dsimp only
      rw [throwIf, if_neg (by omega), ok_bind, readU_ok (by omega), ok_bind, throwIf, if_neg (by omega), ok_bind]

/-- What the data of the group are in the end. -/
theorem icNewCount_eq {old : Option (Nat × Bytes)} {f pre rest : Bytes} {base n : Nat} (hp : pre.length = 6 + 14 * base)
    (h1 : ∀ x, old = some x → pre = x.2.take (6 + 14 * base)) (h2 : old = none → base = 0 ∧ pre = slice f 0 6 ∧ n = rd 2 f 4) :
    ∃ g, icNewCount old base n (pre ++ rest) = .ok g ∧ g = pre.take 4 ++ leBytes 2 (base + n) ++ pre.drop 6 ++ rest := by
  cases old with
  | none =>
    obtain ⟨rfl, rfl, rfl⟩ := h2 rfl
    refine ⟨_, rfl, ?_⟩
    have hl : 6 ≤ f.length := by rw [slice_length] at hp; omega
    have e1 : (slice f 0 6).take 4 = slice f 0 4 := by
      have := slice_slice (b := f) (o1 := 0) (n1 := 6) (o2 := 0) (n2 := 4) (by omega)
      simpa [slice] using this
    have e2 : (slice f 0 6).drop 6 = [] := List.drop_eq_nil_of_le (by omega)
    rw [e1, e2, Nat.zero_add, leBytes_rd (by omega), List.append_nil, ← slice_add]
  | some x =>
    have e : pre ++ rest = pre.take 4 ++ (pre.drop 4 ++ rest) := by rw [← List.append_assoc, List.take_append_drop]
    refine ⟨_, ?_, rfl⟩
    unfold icNewCount
    dsimp only
    rw [leBytes2_w16, e, writeAt_append (by rw [List.length_take]; omega)
      (by rw [leBytes_length, List.length_append, List.length_drop]; omega), leBytes_length]
    refine congrArg Except.ok ?_
    rw [List.drop_append, List.drop_drop, List.length_drop, show 2 - (pre.length - 4) = 0 by omega, List.drop_zero, ← List.append_assoc]

/-- Old entries of the group. -/
theorem old_entry {pre rest : Bytes} {base c j : Nat} (hp : pre.length = 6 + 14 * base) (hj : j < base) :
    grpEntry (pre.take 4 ++ leBytes 2 c ++ pre.drop 6 ++ rest) j = grpEntry pre j := by
  unfold grpEntry
  have e : pre.drop 6 = slice pre 6 (14 * base) := by
    unfold slice; rw [List.take_of_length_le (by rw [List.length_drop]; omega)]
  rw [slice_append_left (by simp only [List.length_append, leBytes_length, List.length_take, List.length_drop]; omega),
    slice_append_right (by simp only [List.length_append, leBytes_length, List.length_take]; omega), e, slice_slice]
  · congr 1
    simp only [List.length_append, leBytes_length, List.length_take]
    omega
  · simp only [List.length_append, leBytes_length, List.length_take]
    omega

theorem new_entry {pre : Bytes} {k : IcKind} {f : Bytes} (hf : IcoFile f) {nums : List Nat} {base c j : Nat} (hp : pre.length = 6 + 14 * base)
    (hj : j < rd 2 f 4) :
    grpEntry (pre.take 4 ++ leBytes 2 c ++ pre.drop 6 ++ newEntries k f nums 0 (rd 2 f 4)) (base + j) =
      k.groupEntry (slice f (6 + 16 * j) 16) (nums.getD j 0) := by
  unfold grpEntry
  have hl : (pre.take 4 ++ leBytes 2 c ++ pre.drop 6).length = 6 + 14 * base := by
    simp only [List.length_append, leBytes_length, List.length_take, List.length_drop]; omega
  rw [slice_append_right (by rw [hl]; omega), hl, show 6 + (base + j) * 14 - (6 + 14 * base) = 14 * j by omega,
    newEntries_at hf nums _ 0 j (by omega) hj, Nat.zero_add]

theorem icoImages_length (f : Bytes) : (icoImages f).length = rd 2 f 4 := by unfold icoImages; rw [List.length_map, List.length_range]

theorem icoImages_at {f : Bytes} {j : Nat} (hj : j < rd 2 f 4) : (icoImages f)[j]? =
    some (slice f (6 + 16 * j) 12, slice f (rd 4 f (6 + 16 * j + 12)) (rd 4 f (6 + 16 * j + 8))) := by
  unfold icoImages
  rw [List.getElem?_map, List.getElem?_range hj]
  rfl

/-- Adding a file, for icons and cursors, for new and for existing groups. -/
theorem addIcons_main (r : ResDir) (k : IcKind) (f : Bytes) (key : ResKey) (lang : Nat) (free : Bool) (cp stamp : Nat) (hf : IcoFile f)
    (hroom : r.Room k.imgType free (rd 2 f 4)) (ht : r.TypeFree k.imgType) (hg : r.GroupFree k key lang)
    (ho : ∀ x, r.groupData k key lang = some x → 6 + 14 * rd 2 x.2 4 ≤ x.2.length ∧ rd 2 x.2 4 + rd 2 f 4 < 65536) :
    ∃ r' cp' base pre nums, r.addIcons k f key lang free cp stamp = (r', .ok ()) ∧ pre.length = 6 + 14 * base ∧
      (∀ x, r.groupData k key lang = some x → cp' = x.1 ∧ base = rd 2 x.2 4 ∧ pre = x.2.take (6 + 14 * base)) ∧
      (r.groupData k key lang = none → cp' = cp ∧ base = 0 ∧ pre = slice f 0 6) ∧
      nums.length = rd 2 f 4 ∧ (∀ x ∈ nums, x < 65536 ∧ r.second k.imgType (.id x) = none) ∧
      r'.getData k.grpType key lang = .ok (cp', pre.take 4 ++ leBytes 2 (base + rd 2 f 4) ++ pre.drop 6 ++ newEntries k f nums 0 (rd 2 f 4)) ∧
      (∀ j x, nums[j]? = some x → r'.getData k.imgType (.id x) lang = .ok (cp', k.storedOf f j)) ∧
      (∀ t n l, (t, n, l) ≠ (k.grpType, key, .id lang) → (t = k.imgType → ∀ x ∈ nums, n ≠ .id x) → r'.entry3 t n l = r.entry3 t n l) := by
  have hb : rd 2 f 4 < 65536 := rd_lt 2 f 4
  obtain ⟨nums, hn1, hn2, hn3, hn4⟩ := C35_fresh_partial r k.imgType free (rd 2 f 4) (Nat.pos_of_ne_zero hf.some) (by omega) hroom
  obtain ⟨cp', base, pre, tail, hs1, hs2, hs3, hs4, hs5⟩ := icGroupStart_eq (k := k) hf (r.groupData k key lang) cp (fun x hx => (ho x hx).1)
  have hsec : ∀ x ∈ nums, r.second k.imgType (.id x) = none := fun x hx => (not_used_iff _ _ _).mp (hn4 x hx).2.2
  obtain ⟨r1, ha, c1, c2, c3⟩ := icAddAll_spec k f nums base lang cp' stamp hf hn2 hn3 (rd 2 f 4) 0 r pre tail (by omega)
    (by omega) hs3 ht (fun j x _ hx => hsec x (List.mem_of_getElem? hx))
  obtain ⟨g, hc, hge⟩ := icNewCount_eq (old := r.groupData k key lang) (f := f) (pre := pre) (rest := newEntries k f nums 0 (rd 2 f 4))
    (base := base) (n := rd 2 f 4) hs2 (fun x hx => (hs4 x hx).2.2) (fun h => ⟨(hs5 h).2.1, (hs5 h).2.2, rfl⟩)
  have hgrp : r1.second k.grpType key = r.second k.grpType key := c2 _ _ (fun h => absurd h (img_ne_grp k))
  have hnb : ¬ r1.Blocked k.grpType key := by
    rw [blocked_iff, c1 _ (img_ne_grp k), hgrp, ← blocked_iff]
    exact hg.1
  have hadd := (C33_add_throws r1 g k.grpType key lang cp' stamp).2 hnb
  cases hr : r1.addResource g k.grpType key lang cp' stamp with
  | mk r' res =>
    rw [hr] at hadd
    dsimp only at hadd
    subst hadd
    obtain ⟨_, _, l3⟩ := add_levels hr
    refine ⟨r', cp', base, pre, nums, ?_, hs2, hs4, hs5, hn2, fun x hx => ⟨by have := hn4 x hx; omega, hsec x hx⟩, ?_, ?_, ?_⟩
    · unfold ResDir.addIcons
      rw [(icFileCheck_iff k f (rd 2 f 4)).mpr ⟨hf, rfl⟩, ok_bind, hs1, ok_bind, hn1, ok_bind]
      dsimp only
      rw [ha]
      dsimp only
      rw [hc]
      exact hr
    · have := C33_add_then_get r1 r' g k.grpType key lang cp' stamp hr (fun a ha' => by
        rw [sub_two, hgrp, ← sub_two] at ha'
        exact hg.2 a ha')
      rw [this, hge]
    · intro j x hx
      rw [getData_second (l3 k.imgType (.id x) (fun h => img_ne_grp k (congrArg Prod.fst h).symm))]
      exact c3 j x (Nat.zero_le _) hx
    · intro t n l hne hnew
      have h1 := C34_add_keeps r1 g k.grpType key lang cp' stamp t n l hne
      rw [hr] at h1
      rw [h1, entry3_second, entry3_second, c2 t n (fun ht j x _ hx => hnew ht x (List.mem_of_getElem? hx))]

theorem groupData_some {r : ResDir} {k : IcKind} {key : ResKey} {lang : Nat} {x : Nat × Bytes} :
    r.groupData k key lang = some x ↔ r.getData k.grpType key lang = .ok x := by
  unfold ResDir.groupData
  cases r.getData k.grpType key lang with
  | ok y => simp
  | error e => simp

theorem groupData_none {r : ResDir} {k : IcKind} {key : ResKey} {lang : Nat} :
    r.groupData k key lang = none ↔ ∀ x, r.getData k.grpType key lang ≠ .ok x := by
  unfold ResDir.groupData
  cases r.getData k.grpType key lang with
  | ok y => simp
  | error e => simp

/-- Entries that are there stay. -/
theorem keeps_of {r r' : ResDir} {k : IcKind} {key : ResKey} {lang : Nat} {nums : List Nat}
    (hs : ∀ x ∈ nums, x < 65536 ∧ r.second k.imgType (.id x) = none)
    (h : ∀ t n l, (t, n, l) ≠ (k.grpType, key, .id lang) → (t = k.imgType → ∀ x ∈ nums, n ≠ .id x) → r'.entry3 t n l = r.entry3 t n l) :
    ∀ t n l e, r.entry3 t n l = some e → (t, n, l) ≠ (k.grpType, key, .id lang) → r'.entry3 t n l = some e := by
  intro t n l e he hne
  rw [h t n l hne (fun ht x hx hn => ?_), he]
  subst ht hn
  rw [entry3_second, (hs x hx).2] at he
  cases he

theorem imgAt_new {r' : ResDir} {k : IcKind} {f : Bytes} {lang cp' base : Nat} {pre : Bytes} {nums : List Nat} (hf : IcoFile f)
    (hp : pre.length = 6 + 14 * base) (hl : nums.length = rd 2 f 4) (hs : ∀ x ∈ nums, x < 65536)
    (hd : ∀ j x, nums[j]? = some x → r'.getData k.imgType (.id x) lang = .ok (cp', k.storedOf f j)) {c j : Nat} {p : Bytes × Bytes}
    (hj : ((icoImages f).map k.shown)[j]? = some p) :
    ImgAt k (r'.imgData k lang) (grpEntry (pre.take 4 ++ leBytes 2 c ++ pre.drop 6 ++ newEntries k f nums 0 (rd 2 f 4)) (base + j)) p := by
  have hjl : j < rd 2 f 4 := by
    have := (List.getElem?_eq_some_iff.mp hj).1
    rwa [List.length_map, icoImages_length] at this
  have hh := hf.headers
  have hx : nums[j]? = some nums[j] := List.getElem?_eq_getElem (by omega)
  have hxm := hs nums[j] (List.getElem_mem _)
  rw [new_entry hf hp hjl, List.getD_eq_getElem?_getD, hx]
  show ImgAt k (r'.imgData k lang) (k.groupEntry (slice f (6 + 16 * j) 16) nums[j]) p
  rw [List.getElem?_map, icoImages_at hjl] at hj
  cases hj
  refine ⟨k.storedOf f j, ?_, fun hk => ?_, (fileEntry_groupEntry hf hjl).symm⟩
  · rw [groupEntry_num (by rw [slice_length_of_le (by omega)]; omega) hxm]
    exact imgData_ok.mpr ⟨_, hd j _ hx⟩
  · subst hk
    show 4 ≤ (slice f (6 + 16 * j + 4) 4 ++ _).length
    rw [List.length_append, slice_length_of_le (by omega)]
    omega

theorem slice04_take {a x b : Bytes} (h : 4 ≤ a.length) : slice (a.take 4 ++ x ++ b) 0 4 = a.take 4 := by
  rw [List.append_assoc]
  exact slice_append_here (by rw [List.length_take]; omega)

theorem grp_count {pre y z : Bytes} {c : Nat} (h : 4 ≤ pre.length) (hc : c < 65536) : rd 2 (pre.take 4 ++ leBytes 2 c ++ y ++ z) 4 = c := by
  simp only [List.append_assoc]
  rw [rd_skip (by rw [List.length_take]; omega), List.length_take, show 4 - min 4 pre.length = 0 by omega, rd_here, Nat.mod_eq_of_lt hc]

/-- C36, C37: a file that is added as a new group can be read again. The images are the same (for cursors with the descriptions that can be
    stored), one behind the other; everything that was there before is still there. -/
theorem icons_new (r : ResDir) (k : IcKind) (f : Bytes) (key : ResKey) (lang : Nat) (free : Bool) (cp stamp : Nat) (hf : IcoFile f)
    (hroom : r.Room k.imgType free (rd 2 f 4)) (ht : r.TypeFree k.imgType) (hg : r.GroupFree k key lang)
    (ho : ∀ x, r.getData k.grpType key lang ≠ .ok x) :
    ∃ r', r.addIcons k f key lang free cp stamp = (r', .ok ()) ∧
      r'.getIcons k key lang = .ok (icoFile (f.take 4) ((icoImages f).map k.shown)) ∧
      (∀ t n l e, r.entry3 t n l = some e → (t, n, l) ≠ (k.grpType, key, .id lang) → r'.entry3 t n l = some e) ∧
      ∃ d, r'.getData k.grpType key lang = .ok (cp, d) := by
  have hb : rd 2 f 4 < 65536 := rd_lt 2 f 4
  have hnone := groupData_none.mpr ho
  obtain ⟨r', cp', base, pre, nums, ha, hp, _, h2, hl, hs, hd, hi, hk⟩ := addIcons_main r k f key lang free cp stamp hf hroom ht hg
    (fun x hx => by rw [hnone] at hx; cases hx)
  obtain ⟨rfl, rfl, rfl⟩ := h2 hnone
  refine ⟨r', ha, ?_, keeps_of hs hk, ⟨_, hd⟩⟩
  · unfold ResDir.getIcons
    rw [hd, ok_bind]
    dsimp only
    have hne := newEntries_length (k := k) hf nums (rd 2 f 4) 0 (by omega)
    refine (icRead_iff _ _ _ _).mpr ⟨?_, ?_, (icoImages f).map k.shown, ?_, ?_, ?_⟩
    · simp only [List.length_append, leBytes_length, List.length_take]; omega
    · rw [grp_count (by omega) (by omega)]
      simp only [List.length_append, leBytes_length, List.length_take, hne]; omega
    · rw [grp_count (by omega) (by omega), List.length_map, icoImages_length, Nat.zero_add]
    · intro j p hj
      have := imgAt_new (c := 0 + rd 2 f 4) hf hp hl (fun x hx => (hs x hx).1) hi hj
      rw [Nat.zero_add j] at this
      exact this
    · rw [List.append_assoc, slice04_take (by omega)]
      unfold slice
      rw [List.drop_zero, List.take_take]
      rfl
/-- C36, C37: a file that is added to a group is read behind the images of the group. -/
theorem icons_more (r : ResDir) (k : IcKind) (f : Bytes) (key : ResKey) (lang : Nat) (free : Bool) (cp stamp : Nat) (hf : IcoFile f)
    (hroom : r.Room k.imgType free (rd 2 f 4)) (ht : r.TypeFree k.imgType) (hg : r.GroupFree k key lang)
    (h : Bytes) (L : List (Bytes × Bytes)) (hh : h.length = 4) (hL : ∀ x ∈ L, x.1.length = 12) (hc : L.length + rd 2 f 4 < 65536)
    (ho : r.getIcons k key lang = .ok (icoFile h L)) :
    ∃ r', r.addIcons k f key lang free cp stamp = (r', .ok ()) ∧
      r'.getIcons k key lang = .ok (icoFile h (L ++ (icoImages f).map k.shown)) ∧
      (∀ t n l e, r.entry3 t n l = some e → (t, n, l) ≠ (k.grpType, key, .id lang) → r'.entry3 t n l = some e) ∧
      (∀ c d, r.getData k.grpType key lang = .ok (c, d) → ∃ d', r'.getData k.grpType key lang = .ok (c, d')) := by
  unfold ResDir.getIcons at ho
  obtain ⟨⟨c, d⟩, hd0, hr⟩ := bind_ok_iff.mp ho
  dsimp only at hr
  obtain ⟨hd6, hd14, L', hL1, hL2, hL3⟩ := (icRead_iff _ _ _ _).mp hr
  have hlt : rd 2 d 4 < 65536 := rd_lt 2 d 4
  have hl4 : (slice d 0 4).length = 4 := slice_length_of_le (by omega)
  have hL12 : ∀ x ∈ L', x.1.length = 12 := by
    intro p hp
    obtain ⟨j, hj⟩ := List.getElem?_of_mem hp
    obtain ⟨x, h1, h2, rfl⟩ := hL2 j p hj
    have hjl := (List.getElem?_eq_some_iff.mp hj).1
    exact fileEntry_length (by unfold grpEntry; rw [slice_length_of_le (by omega)]; omega) h2
  have hcnt : L.length = L'.length := by
    have := icoFile_count (L := L) hh
    rw [hL3, icoFile_count hl4, Nat.mod_eq_of_lt (by omega), Nat.mod_eq_of_lt (by omega)] at this
    exact this.symm
  have hsome := groupData_some.mpr hd0
  obtain ⟨r', cp', base, pre, nums, ha, hp, h1, _, hl, hs, hd, hi, hk⟩ := addIcons_main r k f key lang free cp stamp hf hroom ht hg
    (fun x hx => by rw [hsome] at hx; cases hx; exact ⟨hd14, by dsimp only; omega⟩)
  obtain ⟨rfl, rfl, rfl⟩ := h1 _ hsome
  dsimp only at *
  refine ⟨r', ha, ?_, keeps_of hs hk, fun c' d' h' => ?_⟩
  · unfold ResDir.getIcons
    rw [hd, ok_bind]
    dsimp only
    rw [icoFile_more hh hl4 hL hL12 (by omega) (by omega) hL3]
    have hne := newEntries_length (k := k) hf nums (rd 2 f 4) 0 (by omega)
    refine (icRead_iff _ _ _ _).mpr ⟨?_, ?_, L' ++ (icoImages f).map k.shown, ?_, ?_, ?_⟩
    · simp only [List.length_append, leBytes_length, List.length_take]; omega
    · rw [grp_count (by omega) (by omega)]
      simp only [List.length_append, leBytes_length, List.length_take, List.length_drop, hne]; omega
    · rw [grp_count (by omega) (by omega), List.length_append, List.length_map, icoImages_length, hL1]
    · intro j p hj
      by_cases hjl : j < L'.length
      · rw [List.getElem?_append_left hjl] at hj
        rw [old_entry hp (by omega)]
        obtain ⟨x, g1, g2, g3⟩ := hL2 j p hj
        have he : grpEntry (d.take (6 + 14 * rd 2 d 4)) j = grpEntry d j := by
          unfold grpEntry slice
          rw [List.drop_take, List.take_take]
          congr 1
          omega
        rw [he]
        refine ⟨x, ?_, g2, g3⟩
        obtain ⟨cp, hcp⟩ := imgData_ok.mp g1
        exact imgData_ok.mpr ⟨cp, getData_ok.mpr (keeps_of hs hk _ _ _ _ (getData_ok.mp hcp)
          (fun h => img_ne_grp k (congrArg Prod.fst h).symm))⟩
      · rw [List.getElem?_append_right (by omega)] at hj
        have := imgAt_new (c := rd 2 d 4 + rd 2 f 4) hf hp hl (fun x hx => (hs x hx).1) hi hj
        rw [show rd 2 d 4 + (j - L'.length) = j by omega] at this
        exact this
    · rw [List.append_assoc, slice04_take (by omega)]
      unfold slice
      rw [List.drop_zero, List.take_take, Nat.min_eq_left (by omega)]
  · rw [hd0] at h'
    cases h'
    exact ⟨_, hd⟩

/-! ### The images of a file without gaps -/

/-- The size of the images. -/
def icoSize (L : List (Bytes × Bytes)) : Nat := (L.map fun x => x.2.length).sum

theorem icoDir_at : ∀ (L : List (Bytes × Bytes)) (off j : Nat) (x : Bytes × Bytes), IcoOk L → L[j]? = some x →
    slice (icoDir off L) (16 * j) 12 = x.1 ∧ rd 4 (icoDir off L) (16 * j + 12) = (off + icoSize (L.take j)) % 256 ^ 4 := by
  intro L
  induction L with
  | nil => intro off j x _ h; cases h
  | cons y L ih =>
    intro off j x hok h
    have hy := hok y List.mem_cons_self
    rw [icoDir, List.append_assoc]
    cases j with
    | zero =>
      cases h
      refine ⟨slice_append_here hy.1.symm, ?_⟩
      rw [rd_skip (by omega), hy.1, rd_here]
      rfl
    | succ j =>
      obtain ⟨i1, i2⟩ := ih (off + rd 4 y.1 8) j x (fun z hz => hok z (List.mem_cons_of_mem _ hz)) h
      refine ⟨?_, ?_⟩
      · rw [slice_append_right (by omega), slice_append_right (by rw [leBytes_length]; omega), leBytes_length, hy.1,
          show 16 * (j + 1) - 12 - 4 = 16 * j by omega, i1]
      · rw [rd_skip (by omega), rd_leBytes_skip (by omega), hy.1, show 16 * (j + 1) + 12 - 12 - 4 = 16 * j + 12 by omega, i2, ← hy.2,
          List.take_succ_cons]
        unfold icoSize
        rw [List.map_cons, List.sum_cons, Nat.add_assoc]

theorem flatten_at : ∀ (L : List (Bytes × Bytes)) (j : Nat) (x : Bytes × Bytes), L[j]? = some x →
    slice (L.map Prod.snd).flatten (icoSize (L.take j)) x.2.length = x.2 ∧
      icoSize (L.take j) + x.2.length ≤ (L.map Prod.snd).flatten.length := by
  intro L
  induction L with
  | nil => intro j x h; cases h
  | cons y L ih =>
    intro j x h
    rw [List.map_cons, List.flatten_cons]
    cases j with
    | zero => cases h; exact ⟨slice_append_here rfl, by rw [List.length_append]; show 0 + _ ≤ _; omega⟩
    | succ j =>
      obtain ⟨i1, i2⟩ := ih j x h
      have e : icoSize ((y :: L).take (j + 1)) = y.2.length + icoSize (L.take j) := by
        rw [List.take_succ_cons]; unfold icoSize; rw [List.map_cons, List.sum_cons]
      rw [e]
      refine ⟨?_, by rw [List.length_append]; omega⟩
      rw [slice_append_right (by omega), Nat.add_sub_cancel_left, i1]

theorem flatten_length (L : List (Bytes × Bytes)) : (L.map Prod.snd).flatten.length = icoSize L := by
  unfold icoSize
  rw [List.length_flatten, List.map_map]
  rfl

/-- The images of a file without gaps, below 4 GB. -/
theorem icoFile_at {h : Bytes} {L : List (Bytes × Bytes)} (hh : h.length = 4) (hok : IcoOk L) (hsz : 6 + 16 * L.length + icoSize L < 2 ^ 32)
    {j : Nat} {x : Bytes × Bytes} (hj : L[j]? = some x) :
    slice (icoFile h L) (6 + 16 * j) 12 = x.1 ∧ rd 4 (icoFile h L) (6 + 16 * j + 8) = x.2.length ∧
    rd 4 (icoFile h L) (6 + 16 * j + 12) = 6 + 16 * L.length + icoSize (L.take j) ∧
    slice (icoFile h L) (6 + 16 * L.length + icoSize (L.take j)) x.2.length = x.2 ∧
    6 + 16 * L.length + icoSize (L.take j) + x.2.length ≤ 6 + 16 * L.length + icoSize L := by
  have hjl := (List.getElem?_eq_some_iff.mp hj).1
  have hx := hok x (List.mem_of_getElem? hj)
  obtain ⟨d1, d2⟩ := icoDir_at L (6 + 16 * L.length) j x hok hj
  obtain ⟨f1, f2⟩ := flatten_at L j x hj
  rw [flatten_length] at f2
  have hdl := icoDir_length L (6 + 16 * L.length) (fun y hy => (hok y hy).1)
  have hhl : (h ++ leBytes 2 L.length).length = 6 := by rw [List.length_append, leBytes_length]; omega
  have s1 : slice (icoFile h L) (6 + 16 * j) 12 = x.1 := by
    unfold icoFile
    rw [slice_append_left (by rw [List.length_append]; omega), slice_append_right (by omega), hhl, show 6 + 16 * j - 6 = 16 * j by omega, d1]
  refine ⟨s1, ?_, ?_, ?_, by omega⟩
  · have := rd_slice (b := icoFile h L) (o := 6 + 16 * j) (n := 12) (w := 4) (off := 8) (by omega)
    rw [← this, s1, hx.2]
  · unfold icoFile
    rw [rd_left (by rw [List.length_append]; omega), rd_skip (by omega), hhl, show 6 + 16 * j + 12 - 6 = 16 * j + 12 by omega, d2]
    exact Nat.mod_eq_of_lt (by omega)
  · unfold icoFile
    rw [slice_append_right (by rw [List.length_append]; omega), List.length_append, hhl, hdl, Nat.add_sub_cancel_left, f1]

/-- A file without gaps has the images it is made of. -/
theorem icoImages_icoFile {h : Bytes} {L : List (Bytes × Bytes)} (hh : h.length = 4) (hok : IcoOk L) (hl : L.length < 65536)
    (hsz : 6 + 16 * L.length + icoSize L < 2 ^ 32) : icoImages (icoFile h L) = L := by
  have hc : rd 2 (icoFile h L) 4 = L.length := by rw [icoFile_count hh, Nat.mod_eq_of_lt hl]
  apply List.ext_getElem?
  intro j
  by_cases hj : j < L.length
  · have hx : L[j]? = some L[j] := List.getElem?_eq_getElem hj
    obtain ⟨a1, a2, a3, a4, _⟩ := icoFile_at hh hok hsz hx
    rw [icoImages_at (by omega), hx, a1, a2, a3, a4]
  · rw [List.getElem?_eq_none (by rw [icoImages_length]; omega), List.getElem?_eq_none (by omega)]

/-- And it is accepted. -/
theorem icoFile_ok {h : Bytes} {L : List (Bytes × Bytes)} (hh : h.length = 4) (hok : IcoOk L) (hl : L.length < 65536) (h0 : L ≠ [])
    (hne : ∀ x ∈ L, x.2 ≠ []) (hsz : 6 + 16 * L.length + icoSize L < 2 ^ 32) : IcoFile (icoFile h L) := by
  have hc : rd 2 (icoFile h L) 4 = L.length := by rw [icoFile_count hh, Nat.mod_eq_of_lt hl]
  have hlen : (icoFile h L).length = 6 + 16 * L.length + icoSize L := by
    unfold icoFile
    rw [List.length_append, List.length_append, List.length_append, leBytes_length, hh, icoDir_length _ _ (fun y hy => (hok y hy).1),
      flatten_length]
  have ha : ∀ i, i < rd 2 (icoFile h L) 4 → ∃ x ∈ L, rd 4 (icoFile h L) (6 + 16 * i + 8) = x.2.length ∧
      rd 4 (icoFile h L) (6 + 16 * i + 12) = 6 + 16 * L.length + icoSize (L.take i) ∧
      6 + 16 * L.length + icoSize (L.take i) + x.2.length ≤ 6 + 16 * L.length + icoSize L := by
    intro i hi
    have hx : L[i]? = some L[i] := List.getElem?_eq_getElem (by omega)
    obtain ⟨_, a2, a3, _, a5⟩ := icoFile_at hh hok hsz hx
    exact ⟨L[i], List.getElem_mem _, a2, a3, a5⟩
  have hp : 0 < L.length := List.length_pos_iff.mpr h0
  refine ⟨by omega, by omega, by omega, fun i hi => ?_, fun i hi => ?_, fun i hi => ?_, fun i hi => ?_⟩
  all_goals obtain ⟨x, hxm, a2, a3, a5⟩ := ha i hi
  · rw [a2]; exact fun h => hne x hxm (List.length_eq_zero_iff.mp h)
  · rw [a3, hc]; omega
  · rw [a2, a3]; omega
  · rw [a2, a3]; omega

theorem icoImages_ok {f : Bytes} (hf : IcoFile f) : IcoOk (icoImages f) := by
  intro x hx
  unfold icoImages at hx
  obtain ⟨i, hi, rfl⟩ := List.mem_map.mp hx
  rw [List.mem_range] at hi
  have h1 := hf.headers
  have h2 := hf.fits i hi
  refine ⟨slice_length_of_le (by omega), ?_⟩
  dsimp only
  rw [slice_length_of_le (by omega), rd_slice (by omega)]

theorem icoImages_ne {f : Bytes} (hf : IcoFile f) : icoImages f ≠ [] := by
  intro h
  have := icoImages_length f
  rw [h] at this
  exact hf.some this.symm

/-! ### C36 -/

/-- C36: an icon file that is added as a new group is read with the same icons, and everything else in the tree is as it was. The group is
    stored with the given code page. -/
theorem C36_add_new (r : ResDir) (f : Bytes) (key : ResKey) (lang : Nat) (free : Bool) (cp stamp : Nat) (hf : IcoFile f)
    (hroom : r.Room (.id 3) free (rd 2 f 4)) (ht : r.TypeFree (.id 3)) (hg : r.GroupFree .icon key lang)
    (ho : ∀ x, r.getData (.id 14) key lang ≠ .ok x) :
    ∃ r', r.addIcons .icon f key lang free cp stamp = (r', .ok ()) ∧
      r'.getIcons .icon key lang = .ok (icoFile (f.take 4) (icoImages f)) ∧
      (∀ t n l e, r.entry3 t n l = some e → (t, n, l) ≠ (.id 14, key, .id lang) → r'.entry3 t n l = some e) ∧
      ∃ d, r'.getData (.id 14) key lang = .ok (cp, d) := by
  have := icons_new r .icon f key lang free cp stamp hf hroom ht hg ho
  rw [show (icoImages f).map (IcKind.shown .icon) = icoImages f from List.map_id _] at this
  exact this

/-- C36: an icon file that is added to a group is read behind the icons of the group, and everything else in the tree is as it was. The code
    page of the group stays. -/
theorem C36_add_more (r : ResDir) (f : Bytes) (key : ResKey) (lang : Nat) (free : Bool) (cp stamp : Nat) (hf : IcoFile f)
    (hroom : r.Room (.id 3) free (rd 2 f 4)) (ht : r.TypeFree (.id 3)) (hg : r.GroupFree .icon key lang)
    (h : Bytes) (L : List (Bytes × Bytes)) (hh : h.length = 4) (hL : ∀ x ∈ L, x.1.length = 12) (hc : L.length + rd 2 f 4 < 65536)
    (ho : r.getIcons .icon key lang = .ok (icoFile h L)) :
    ∃ r', r.addIcons .icon f key lang free cp stamp = (r', .ok ()) ∧
      r'.getIcons .icon key lang = .ok (icoFile h (L ++ icoImages f)) ∧
      (∀ t n l e, r.entry3 t n l = some e → (t, n, l) ≠ (.id 14, key, .id lang) → r'.entry3 t n l = some e) ∧
      (∀ c d, r.getData (.id 14) key lang = .ok (c, d) → ∃ d', r'.getData (.id 14) key lang = .ok (c, d')) := by
  have := icons_more r .icon f key lang free cp stamp hf hroom ht hg h L hh hL hc ho
  rw [show (icoImages f).map (IcKind.shown .icon) = icoImages f from List.map_id _] at this
  exact this

/-- C36: what is read is again an icon file, with the same images at the places given in it (if the size is below 4 GB; images that lie over
    each other in the file are written separately). -/
theorem C36_file (f : Bytes) (hf : IcoFile f) (hsz : 6 + 16 * rd 2 f 4 + icoSize (icoImages f) < 2 ^ 32) :
    IcoFile (icoFile (f.take 4) (icoImages f)) ∧ icoImages (icoFile (f.take 4) (icoImages f)) = icoImages f := by
  have hh : (f.take 4).length = 4 := by have := hf.long; rw [List.length_take]; omega
  have hl : (icoImages f).length < 65536 := by rw [icoImages_length]; exact rd_lt 2 f 4
  have hok := icoImages_ok hf
  refine ⟨icoFile_ok hh hok hl (icoImages_ne hf) (fun x hx => ?_) (by rw [icoImages_length]; exact hsz),
    icoImages_icoFile hh hok hl (by rw [icoImages_length]; exact hsz)⟩
  intro h0
  have := (hok x hx).2
  rw [h0] at this
  unfold icoImages at hx
  obtain ⟨i, hi, rfl⟩ := List.mem_map.mp hx
  rw [List.mem_range] at hi
  rw [rd_slice (by omega)] at this
  exact hf.size i hi this.symm

/-- C36, C37: any other file is refused, and nothing is changed. -/
theorem C36_refused (r : ResDir) (k : IcKind) (f : Bytes) (key : ResKey) (lang : Nat) (free : Bool) (cp stamp : Nat) (hf : ¬ IcoFile f) :
    r.addIcons k f key lang free cp stamp = (r, throwE k.err) := by
  have : icFileCheck k f = throwE k.err := by
    rcases icFileCheck_only k f with ⟨n, h⟩ | h
    · exact absurd ((icFileCheck_iff k f n).mp h).1 hf
    · exact h
  unfold ResDir.addIcons
  rw [this]
  rfl

/-! ### C37 -/

/-- C37: a cursor file that is added as a new group is read with the same images, hotspots, widths and sizes; the heights are those modulo
    128. Missing: heights of 128 and more, see `C37_height`; the color count is not stored. -/
theorem C37_add_new_partial (r : ResDir) (f : Bytes) (key : ResKey) (lang : Nat) (free : Bool) (cp stamp : Nat) (hf : IcoFile f)
    (hroom : r.Room (.id 1) free (rd 2 f 4)) (ht : r.TypeFree (.id 1)) (hg : r.GroupFree .cursor key lang)
    (ho : ∀ x, r.getData (.id 12) key lang ≠ .ok x) :
    ∃ r', r.addIcons .cursor f key lang free cp stamp = (r', .ok ()) ∧
      r'.getIcons .cursor key lang = .ok (icoFile (f.take 4) ((icoImages f).map fun x => (cursorDesc x.1, x.2))) ∧
      (∀ t n l e, r.entry3 t n l = some e → (t, n, l) ≠ (.id 12, key, .id lang) → r'.entry3 t n l = some e) ∧
      ∃ d, r'.getData (.id 12) key lang = .ok (cp, d) :=
  icons_new r .cursor f key lang free cp stamp hf hroom ht hg ho

/-- C37: the same for a group that exists. -/
theorem C37_add_more_partial (r : ResDir) (f : Bytes) (key : ResKey) (lang : Nat) (free : Bool) (cp stamp : Nat) (hf : IcoFile f)
    (hroom : r.Room (.id 1) free (rd 2 f 4)) (ht : r.TypeFree (.id 1)) (hg : r.GroupFree .cursor key lang)
    (h : Bytes) (L : List (Bytes × Bytes)) (hh : h.length = 4) (hL : ∀ x ∈ L, x.1.length = 12) (hc : L.length + rd 2 f 4 < 65536)
    (ho : r.getIcons .cursor key lang = .ok (icoFile h L)) :
    ∃ r', r.addIcons .cursor f key lang free cp stamp = (r', .ok ()) ∧
      r'.getIcons .cursor key lang = .ok (icoFile h (L ++ (icoImages f).map fun x => (cursorDesc x.1, x.2))) ∧
      (∀ t n l e, r.entry3 t n l = some e → (t, n, l) ≠ (.id 12, key, .id lang) → r'.entry3 t n l = some e) ∧
      (∀ c d, r.getData (.id 12) key lang = .ok (c, d) → ∃ d', r'.getData (.id 12) key lang = .ok (c, d')) :=
  icons_more r .cursor f key lang free cp stamp hf hroom ht hg h L hh hL hc ho

/-- C37: a description with a height below 128, no color count and no reserved byte is stored unchanged. -/
theorem C37_same_description (d : Bytes) (hd : d.length = 12) (hh : rd 1 d 1 < 128) (hc : rd 1 d 2 = 0) (hr : rd 1 d 3 = 0) :
    cursorDesc d = d := by
  have hz : zeros 2 = leBytes 1 (rd 1 d 2) ++ leBytes 1 (rd 1 d 3) := by rw [hc, hr]; rfl
  unfold cursorDesc
  rw [Nat.mod_eq_of_lt hh, hz, leBytes_rd (by omega), leBytes_rd (by omega), leBytes_rd (by omega), leBytes_rd (by omega)]
  have e1 : slice d 0 1 ++ slice d 1 1 = slice d 0 2 := (slice_add (m := 1) (n := 1)).symm
  have e2 : slice d 2 1 ++ slice d 3 1 = slice d 2 2 := (slice_add (m := 1) (n := 1)).symm
  have e3 : slice d 0 2 ++ slice d 2 2 = slice d 0 4 := (slice_add (m := 2) (n := 2)).symm
  have e4 : slice d 0 4 ++ slice d 4 8 = slice d 0 12 := (slice_add (m := 4) (n := 8)).symm
  rw [e1, e2, e3, e4, ← hd, slice_zero_length]

/-- C37: width, hotspot and size are always those of the file. -/
theorem C37_description (d : Bytes) (_ : d.length = 12) :
    rd 1 (cursorDesc d) 0 = rd 1 d 0 ∧ rd 1 (cursorDesc d) 1 = rd 1 d 1 % 128 ∧ rd 2 (cursorDesc d) 4 = rd 2 d 4 ∧
    rd 2 (cursorDesc d) 6 = rd 2 d 6 ∧ rd 4 (cursorDesc d) 8 = rd 4 d 8 := by
  have h0 : rd 1 d 0 < 256 := rd1_lt d 0
  have h1 : rd 1 d 1 < 256 := rd1_lt d 1
  have hp : ∀ w o, 4 ≤ o → o + w ≤ 12 → rd w (cursorDesc d) o = rd w d o := by
    intro w o ho hw
    unfold cursorDesc
    rw [rd_skip (by simp only [List.length_append, leBytes_length, zeros_length]; omega)]
    simp only [List.length_append, leBytes_length, zeros_length]
    rw [rd_slice (by omega), show 4 + (o - (1 + 1 + 2)) = o by omega]
  refine ⟨?_, ?_, hp 2 4 (by omega) (by omega), hp 2 6 (by omega) (by omega), hp 4 8 (by omega) (by omega)⟩
  · unfold cursorDesc
    simp only [List.append_assoc]
    rw [rd_here]
    omega
  · unfold cursorDesc
    simp only [List.append_assoc]
    rw [rd_leBytes_skip (by omega), rd_here]
    omega

/-- C37: what is read is again a cursor file with these images. -/
theorem C37_file (f : Bytes) (hf : IcoFile f) (hsz : 6 + 16 * rd 2 f 4 + icoSize (icoImages f) < 2 ^ 32) :
    icoImages (icoFile (f.take 4) ((icoImages f).map fun x => (cursorDesc x.1, x.2))) = (icoImages f).map fun x => (cursorDesc x.1, x.2) := by
  have hh : (f.take 4).length = 4 := by have := hf.long; rw [List.length_take]; omega
  have hs : icoSize ((icoImages f).map fun x => (cursorDesc x.1, x.2)) = icoSize (icoImages f) := by
    unfold icoSize; rw [List.map_map]; rfl
  refine icoImages_icoFile hh ?_ ?_ ?_
  · intro x hx
    obtain ⟨y, hy, rfl⟩ := List.mem_map.mp hx
    obtain ⟨h1, h2⟩ := icoImages_ok hf y hy
    dsimp only
    refine ⟨?_, by rw [h2, (C37_description y.1 h1).2.2.2.2]⟩
    unfold cursorDesc
    simp only [List.length_append, leBytes_length, zeros_length]
    rw [slice_length_of_le (by omega)]
  · rw [List.length_map, icoImages_length]; exact rd_lt 2 f 4
  · rw [List.length_map, icoImages_length, hs]; exact hsz

/-! ### Examples -/

/-- An icon file with two images of two and three bytes, in reverse order and with a gap. -/
def demoIco : Bytes :=
  [0, 0, 1, 0, 2, 0] ++ [16, 16, 0, 0, 1, 0, 8, 0, 2, 0, 0, 0, 42, 0, 0, 0] ++ [32, 32, 4, 0, 1, 0, 4, 0, 3, 0, 0, 0, 38, 0, 0, 0] ++
    [7, 8, 9, 0xEE, 5, 6]

theorem demoIco_ok : IcoFile demoIco := ((icFileCheck_iff .icon demoIco 2).mp (by decide +kernel)).1

example : icoImages demoIco = [([16, 16, 0, 0, 1, 0, 8, 0, 2, 0, 0, 0], [5, 6]), ([32, 32, 4, 0, 1, 0, 4, 0, 3, 0, 0, 0], [7, 8, 9])] := by
  decide +kernel

/-- A tree in which icons can be added. -/
def demoIconTree : ResDir := iconTree [8, 1, 3, 7, 4]

theorem demoIconTree_room : demoIconTree.Room (.id 3) false (rd 2 demoIco 4) := by
  rw [show rd 2 demoIco 4 = 2 from rfl]
  unfold demoIconTree
  refine ⟨fun h => ?_, fun x hx => ?_, ?_⟩
  · rw [iconTree_sub] at h; cases h
  · have := iconTree_used hx; simp at this; omega
  · rw [if_neg (by decide)]
    intro x hx
    have := iconTree_used hx; simp at this; omega

/-- The hypotheses of `C36_add_new` hold. -/
example : ∃ r', demoIconTree.addIcons .icon demoIco (.id 1) 1033 false 0 5 = (r', .ok ()) ∧
    r'.getIcons .icon (.id 1) 1033 = .ok (icoFile (demoIco.take 4) (icoImages demoIco)) := by
  obtain ⟨r', h1, h2, _⟩ := C36_add_new demoIconTree demoIco (.id 1) 1033 false 0 5 demoIco_ok demoIconTree_room
    (fun e he hn => by cases he; exact hn)
    ⟨(fun h => h.elim (fun ⟨_, he, _⟩ => by cases he) (fun ⟨_, _, hd, _⟩ => by cases hd)), fun a ha => (by cases ha)⟩
    (fun x hx => by cases hx)
  exact ⟨r', h1, h2⟩

/-- The tree after that. -/
def demoIconTree2 : ResDir := (demoIconTree.addIcons .icon demoIco (.id 1) 1033 false 0 5).1

/-- The hypotheses of `C36_add_more` hold (except for room, which is shown above for a similar tree), and its conclusion is not trivial. -/
example : demoIconTree2.getIcons .icon (.id 1) 1033 = .ok (icoFile [0, 0, 1, 0] (icoImages demoIco)) ∧
    (demoIconTree2.addIcons .icon demoIco (.id 1) 1033 false 9 5).2 = .ok () ∧
    (demoIconTree2.addIcons .icon demoIco (.id 1) 1033 false 9 5).1.getIcons .icon (.id 1) 1033 =
      .ok (icoFile [0, 0, 1, 0] (icoImages demoIco ++ icoImages demoIco)) := by decide +kernel

/-- The hypotheses of `C36_file` hold. -/
example : 6 + 16 * rd 2 demoIco 4 + icoSize (icoImages demoIco) < 2 ^ 32 := by decide +kernel

/-- `C36_refused`: a file that says three images. -/
example : ¬ IcoFile (patch demoIco 4 [3]) := fun h => by
  have := (icFileCheck_iff .icon _ _).mpr ⟨h, rfl⟩
  revert this
  decide +kernel

/-- A cursor file with one image of height `height`. -/
def demoCur (height : UInt8) : Bytes := [0, 0, 2, 0, 1, 0] ++ [16, height, 0, 0, 3, 0, 4, 0, 2, 0, 0, 0, 22, 0, 0, 0] ++ [5, 6]

/-- The hypotheses of `C37_add_new_partial` hold, and below 128 the file comes back as it was. -/
example : ∃ r', ({ es := [] } : ResDir).addIcons .cursor (demoCur 127) (.id 1) 1033 true 0 5 = (r', .ok ()) ∧
    r'.getIcons .cursor (.id 1) 1033 = .ok (demoCur 127) := by
  obtain ⟨r', h1, h2, _⟩ := C37_add_new_partial { es := [] } (demoCur 127) (.id 1) 1033 true 0 5
    ((icFileCheck_iff .cursor (demoCur 127) 1).mp (by decide +kernel)).1
    ⟨fun _ => by decide +kernel, fun x ⟨d, hd, _⟩ => (by cases hd), by
      rw [if_pos rfl]
      have : (freeNumbers (({ es := [] } : ResDir).numbers (.id 1))).length = 65535 := by
        show (freeNumbers []).length = 65535
        unfold freeNumbers
        rw [List.filter_eq_self.mpr (fun x _ => by simp), List.length_range']
      rw [this]; decide +kernel⟩
    (fun e he => (by cases he))
    ⟨(fun h => h.elim (fun ⟨_, he, _⟩ => by cases he) (fun ⟨_, _, hd, _⟩ => by cases hd)), fun a ha => (by cases ha)⟩
    (fun x hx => by cases hx)
  refine ⟨r', h1, ?_⟩
  rw [h2]
  decide +kernel

/-- C37 is false for heights of 128 and more: a cursor of height 128 is read with height 0. -/
theorem C37_height : IcoFile (demoCur 128) ∧ rd 1 (demoCur 128) 7 = 128 ∧
    ∃ f, (({ es := [] } : ResDir).addIcons .cursor (demoCur 128) (.id 1) 1033 true 0 5).1.getIcons .cursor (.id 1) 1033 = .ok f ∧
      rd 1 f 7 = 0 := by
  refine ⟨((icFileCheck_iff .cursor (demoCur 128) 1).mp (by decide +kernel)).1, by decide +kernel, ?_⟩
  obtain ⟨f, h1, h2⟩ := exists_of_okAnd
    (x := (({ es := [] } : ResDir).addIcons .cursor (demoCur 128) (.id 1) 1033 true 0 5).1.getIcons .cursor (.id 1) 1033)
    (f := fun f => decide (rd 1 f 7 = 0)) (by decide +kernel)
  exact ⟨f, h1, by simpa using h2⟩

end PE
