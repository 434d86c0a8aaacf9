/-
C87: what a call that changes resources leaves behind when it throws.
-/
import Verif.Props.IconsMore
import Verif.Props.VersionInfo

namespace PE

/-- If the call did not return, the tree is the one from before. -/
def AllOrNothing {α : Type} (r : ResDir) (x : ResDir × Res α) : Prop := ∀ e, x.2 = .error e → x.1 = r

/-! ### Single resources -/

/-- C87: `add_resource` and all forms of `remove_resource` are all or nothing. -/
theorem C87_manager (r : ResDir) (d : Bytes) (t n : ResKey) (lang cp stamp : Nat) :
    AllOrNothing r (r.addResource d t n lang cp stamp) ∧ AllOrNothing r (r.removeType t) ∧ AllOrNothing r (r.removeName t n) ∧
    AllOrNothing r (r.removeLang t n lang) := by
  refine ⟨fun e h => ?_, fun e h => ?_, fun e h => ?_, fun e h => ?_⟩
  · by_cases hb : r.Blocked t n
    · rw [(C33_add_throws r d t n lang cp stamp).1 hb]
    · rw [(C33_add_throws r d t n lang cp stamp).2 hb] at h; cases h
  · unfold ResDir.removeType at h ⊢
    split at h
    · cases h
    · rfl
  · unfold ResDir.removeName at h ⊢
    split at h
    · rfl
    · split at h
      · split at h
        · cases h
        · split at h <;> cases h
      · rfl
  · unfold ResDir.removeLang at h ⊢
    split at h
    · rfl
    · split at h
      · split at h
        · cases h
        · split at h
          · split at h
            · cases h
            · split at h
              · split at h <;> cases h
              · cases h
          · rfl
      · rfl

/-- C87: so are the functions for bitmaps and version information. -/
theorem C87_bitmap_version (r : ResDir) (f : Bytes) (key : ResKey) (v : FileVer) (ss : LangMap) (ts : TransMap) (lang cp stamp : Nat) :
    AllOrNothing r (r.addBitmap f key lang cp stamp) ∧ AllOrNothing r (r.removeBitmap key lang) ∧
    AllOrNothing r (r.setVersionInfo v ss ts lang cp stamp) ∧ AllOrNothing r (r.removeVersionInfo lang) := by
  refine ⟨fun e h => ?_, (C87_manager r [] _ _ lang 0 0).2.2.2, fun e h => ?_, (C87_manager r [] _ _ lang 0 0).2.2.2⟩
  · unfold ResDir.addBitmap at h ⊢
    by_cases hl : f.length < 14
    · rw [if_pos hl]
    · rw [if_neg hl] at h ⊢
      exact (C87_manager r _ _ _ lang cp stamp).1 e h
  · unfold ResDir.setVersionInfo at h ⊢
    split at h
    · rfl
    · exact (C87_manager r _ _ _ lang cp stamp).1 e h

/-! ### Adding icons and cursors -/

/-- If the entry of the type of the images is no directory, not even the first image is added. -/
theorem icAddAll_type {r : ResDir} {k : IcKind} {f : Bytes} {nums : List Nat} {base lang cp stamp n i : Nat} {g : Bytes} (hn : 0 < n)
    (ht : ¬ r.TypeFree k.imgType) : ∃ e, icAddAll k f nums base lang cp stamp n i r g = (r, .error e) := by
  obtain ⟨m, rfl⟩ := Nat.exists_eq_succ_of_ne_zero (Nat.ne_of_gt hn)
  rw [icAddAll]
  cases ho : icOne k f nums base i g with
  | error e => exact ⟨e, rfl⟩
  | ok x =>
    obtain ⟨num, g1, x⟩ := x
    dsimp only
    have hb : r.Blocked k.imgType (.id num) := Classical.byContradiction fun hb =>
      ht (fun e he hd => hb (Or.inl ⟨e, he, hd⟩))
    rw [(C33_add_throws r x k.imgType (.id num) lang cp stamp).1 hb]
    exact ⟨_, rfl⟩

/-- An old group that cannot be extended. -/
theorem icGroupStart_old {k : IcKind} {f d : Bytes} {n c cp : Nat} (h : d.length < 6 + 14 * rd 2 d 4) :
    ∃ e, icGroupStart k f n (some (c, d)) cp = .error e := by
  unfold icGroupStart
  dsimp only
  by_cases h6 : d.length < 6
  · rw [throwIf, if_pos h6]; exact ⟨_, rfl⟩
  · rw [throwIf, if_neg h6, ok_bind, readU_ok (by omega), ok_bind, throwIf, if_pos (by omega)]; exact ⟨_, rfl⟩

theorem blocked_no_group {r : ResDir} {k : IcKind} {key : ResKey} {lang : Nat} (hb : r.Blocked k.grpType key) :
    r.groupData k key lang = none := by
  rw [groupData_none]
  intro x hx
  rw [blocked_iff] at hb
  have h3 := getData_ok.mp hx
  rw [entry3_second] at h3
  rcases hb with ⟨e, he, hn⟩ | ⟨e, he, hn⟩
  · unfold ResDir.second at h3; rw [he, notDir_dirOf hn] at h3; cases h3
  · rw [he, notDir_dirOf hn] at h3; cases h3

/-- C87: a file cannot become the group `key` if something is in the way of the group. The images have been added then: all of them, with
    new numbers, and no group has them. Everything that was there is there. -/
theorem C87_add_orphans (r : ResDir) (k : IcKind) (f : Bytes) (key : ResKey) (lang : Nat) (free : Bool) (cp stamp : Nat) (hf : IcoFile f)
    (hroom : r.Room k.imgType free (rd 2 f 4)) (ht : r.TypeFree k.imgType) (hb : r.Blocked k.grpType key) :
    ∃ r', ∃ nums : List Nat, r.addIcons k f key lang free cp stamp = (r', throwE .resourceDirectoryEntryError) ∧
      nums.length = rd 2 f 4 ∧ nums.Nodup ∧ (∀ x ∈ nums, ¬ r.Used k.imgType x) ∧
      (∀ j x, nums[j]? = some x → r'.getData k.imgType (.id x) lang = .ok (cp, k.storedOf f j)) ∧
      (∀ t n l, (t = k.imgType → ∀ x ∈ nums, n ≠ .id x) → r'.entry3 t n l = r.entry3 t n l) := by
  have hlt : rd 2 f 4 < 65536 := rd_lt 2 f 4
  obtain ⟨nums, hn1, hn2, hn3, hn4⟩ := C35_fresh_partial r k.imgType free (rd 2 f 4) (Nat.pos_of_ne_zero hf.some) (by omega) hroom
  have hnone := blocked_no_group (lang := lang) hb
  obtain ⟨cp', base, pre, tail, hs1, hs2, hs3, hs4, hs5⟩ := icGroupStart_eq (k := k) hf (r.groupData k key lang) cp
    (fun x hx => by rw [hnone] at hx; cases hx)
  obtain ⟨rfl, rfl, rfl⟩ := hs5 hnone
  have hsec : ∀ x ∈ nums, r.second k.imgType (.id x) = none := fun x hx => (not_used_iff _ _ _).mp (hn4 x hx).2.2
  obtain ⟨r1, ha, c1, c2, c3⟩ := icAddAll_spec k f nums 0 lang cp' stamp hf hn2 hn3 (rd 2 f 4) 0 r (slice f 0 6) tail (by omega)
    (by omega) hs3 ht (fun j x _ hx => hsec x (List.mem_of_getElem? hx))
  have hgrp : r1.second k.grpType key = r.second k.grpType key := c2 _ _ (fun h => absurd h (img_ne_grp k))
  have hnb : r1.Blocked k.grpType key := by
    rw [blocked_iff, c1 _ (img_ne_grp k), hgrp, ← blocked_iff]
    exact hb
  refine ⟨r1, nums, ?_, hn2, hn3, fun x hx => (hn4 x hx).2.2, fun j x hx => c3 j x (Nat.zero_le _) hx, fun t n l h => ?_⟩
  · unfold ResDir.addIcons
    rw [(icFileCheck_iff k f (rd 2 f 4)).mpr ⟨hf, rfl⟩, ok_bind, hs1, ok_bind, hn1, ok_bind]
    dsimp only
    rw [ha, hnone]
    exact (C33_add_throws r1 _ k.grpType key lang cp' stamp).1 hnb
  · rw [entry3_second, entry3_second, c2 t n (fun ht j x _ hx => h ht x (List.mem_of_getElem? hx))]

/-- C87: adding a file that throws has either changed nothing, or the group was in the way of a proper file (`C87_add_orphans`). Missing: the
    statement that nothing has changed, which is false in the second case. -/
theorem C87_add_partial (r : ResDir) (k : IcKind) (f : Bytes) (key : ResKey) (lang : Nat) (free : Bool) (cp stamp : Nat)
    (hroom : r.Room k.imgType free (rd 2 f 4)) (e : Fault)
    (h : (r.addIcons k f key lang free cp stamp).2 = .error e) :
    (r.addIcons k f key lang free cp stamp).1 = r ∨ (IcoFile f ∧ r.TypeFree k.imgType ∧ r.Blocked k.grpType key) := by
  by_cases hf : IcoFile f
  · by_cases ht : r.TypeFree k.imgType
    · by_cases hb : r.Blocked k.grpType key
      · exact Or.inr ⟨hf, ht, hb⟩
      · left
        have hlt : rd 2 f 4 < 65536 := rd_lt 2 f 4
        obtain ⟨nums, hn1, hn2, hn3, hn4⟩ := C35_fresh_partial r k.imgType free (rd 2 f 4) (Nat.pos_of_ne_zero hf.some) (by omega) hroom
        by_cases ho : ∀ x, r.groupData k key lang = some x → 6 + 14 * rd 2 x.2 4 ≤ x.2.length
        · exfalso
          obtain ⟨cp', base, pre, tail, hs1, hs2, hs3, hs4, hs5⟩ := icGroupStart_eq (k := k) hf (r.groupData k key lang) cp ho
          have hsec : ∀ x ∈ nums, r.second k.imgType (.id x) = none := fun x hx => (not_used_iff _ _ _).mp (hn4 x hx).2.2
          obtain ⟨r1, ha, c1, c2, c3⟩ := icAddAll_spec k f nums base lang cp' stamp hf hn2 hn3 (rd 2 f 4) 0 r pre tail (by omega)
            (by omega) hs3 ht (fun j x _ hx => hsec x (List.mem_of_getElem? hx))
          obtain ⟨g, hcnt, _⟩ := icNewCount_eq (old := r.groupData k key lang) (f := f) (pre := pre)
            (rest := newEntries k f nums 0 (rd 2 f 4))
            (base := base) (n := rd 2 f 4) hs2 (fun x hx => (hs4 x hx).2.2) (fun h => ⟨(hs5 h).2.1, (hs5 h).2.2, rfl⟩)
          have hgrp : r1.second k.grpType key = r.second k.grpType key := c2 _ _ (fun h => absurd h (img_ne_grp k))
          have hnb : ¬ r1.Blocked k.grpType key := by
            rw [blocked_iff, c1 _ (img_ne_grp k), hgrp, ← blocked_iff]
            exact hb
          unfold ResDir.addIcons at h
          rw [(icFileCheck_iff k f (rd 2 f 4)).mpr ⟨hf, rfl⟩, ok_bind, hs1, ok_bind, hn1, ok_bind] at h
          dsimp only at h
          rw [ha] at h
          dsimp only at h
          rw [hcnt] at h
          dsimp only at h
          rw [(C33_add_throws r1 g k.grpType key lang cp' stamp).2 hnb] at h
          cases h
        · have ⟨x, hx, hlx⟩ : ∃ x, r.groupData k key lang = some x ∧ x.2.length < 6 + 14 * rd 2 x.2 4 :=
            Classical.byContradiction fun hne => ho fun x hx => Nat.le_of_not_lt fun hl => hne ⟨x, hx, hl⟩
          obtain ⟨c, d⟩ := x
          obtain ⟨e', he'⟩ := icGroupStart_old (k := k) (f := f) (n := rd 2 f 4) (c := c) (cp := cp) hlx
          unfold ResDir.addIcons
          rw [(icFileCheck_iff k f (rd 2 f 4)).mpr ⟨hf, rfl⟩, ok_bind, hx, he']
          rfl
    · left
      unfold ResDir.addIcons at h ⊢
      rw [(icFileCheck_iff k f (rd 2 f 4)).mpr ⟨hf, rfl⟩, ok_bind] at h ⊢
      cases hs : icGroupStart k f (rd 2 f 4) (r.groupData k key lang) cp with
      | error e => rfl
      | ok x =>
        rw [ok_bind]
        obtain ⟨cp', base, g⟩ := x
        cases hn : r.freeIds k.imgType free (rd 2 f 4) with
        | error e => rfl
        | ok nums =>
          rw [ok_bind]
          dsimp only
          obtain ⟨e', he⟩ := icAddAll_type (r := r) (k := k) (f := f) (nums := nums) (base := base) (lang := lang) (cp := cp') (stamp := stamp)
            (i := 0) (g := g) (Nat.pos_of_ne_zero hf.some) ht
          rw [he]
  · left
    rw [C36_refused r k f key lang free cp stamp hf]

/-- C87: adding a file is all or nothing if nothing is in the way of the group. -/
theorem C87_add (r : ResDir) (k : IcKind) (f : Bytes) (key : ResKey) (lang : Nat) (free : Bool) (cp stamp : Nat)
    (hroom : r.Room k.imgType free (rd 2 f 4)) (hb : ¬ r.Blocked k.grpType key) :
    AllOrNothing r (r.addIcons k f key lang free cp stamp) := fun e h => by
  rcases C87_add_partial r k f key lang free cp stamp hroom e h with h | ⟨_, _, h⟩
  · exact h
  · exact absurd h hb

/-! ### Removing icons and cursors -/

/-- What removing the images does up to the first one that cannot be removed. -/
theorem icRemoveAll_cases (k : IcKind) (d : Bytes) (lang : Nat) : ∀ (c i : Nat) (r : ResDir), 6 + 14 * (i + c) ≤ d.length → r.Unique →
    (∃ r', icRemoveAll k d lang c i r = (r', .ok ()) ∧ r'.Unique ∧ ∀ t n, ¬ r.Blocked t n → ¬ r'.Blocked t n) ∨
    ∃ r' m, icRemoveAll k d lang c i r = (r', throwE .resourceDirectoryEntryError) ∧ m < c ∧
      r.Blocked k.imgType (.id (rd 2 (grpEntry d (i + m)) 12)) ∧ (m = 0 → r' = r) ∧
      (∀ n, grpHas d m i n → r'.entry3 k.imgType n (.id lang) = none) ∧
      (∀ t n l, ¬ (t = k.imgType ∧ l = .id lang ∧ grpHas d m i n) → r'.entry3 t n l = r.entry3 t n l) := by
  intro c
  induction c with
  | zero => intro i r _ hu; exact Or.inl ⟨r, rfl, hu, fun _ _ h => h⟩
  | succ c ih =>
    intro i r hl hu
    have hrd : readN d (6 + i * 14) 14 = .ok (grpEntry d i) := by rw [readN_ok (by omega)]; rfl
    by_cases hb : r.Blocked k.imgType (.id (rd 2 (grpEntry d i) 12))
    · right
      refine ⟨r, 0, ?_, by omega, hb, fun _ => rfl, fun n ⟨j, h1, h2, _⟩ => by omega, fun _ _ _ _ => rfl⟩
      rw [icRemoveAll, hrd]
      dsimp only
      rw [C34_remove_throws r _ _ lang hb]
      rfl
    · obtain ⟨e1, e2, _⟩ := C34_remove_language r k.imgType (.id (rd 2 (grpEntry d i) 12)) lang hu hb
      have hstep : icRemoveAll k d lang (c + 1) i r =
          icRemoveAll k d lang c (i + 1) (r.removeLang k.imgType (.id (rd 2 (grpEntry d i) 12)) lang).1 := by
        rw [icRemoveAll, hrd]
        dsimp only
        cases hr : r.removeLang k.imgType (.id (rd 2 (grpEntry d i) 12)) lang with
        | mk r1 res =>
          rw [hr] at e1
          dsimp only at e1
          subst e1
          rfl
      rw [hstep]
      rcases ih (i + 1) (r.removeLang k.imgType (.id (rd 2 (grpEntry d i) 12)) lang).1 (by omega) (removeLang_levels r _ _ lang hu).1 with
        ⟨r', f1, f2, f3⟩ | ⟨r', m, f1, f2, f3, _, f4, f5⟩
      · exact Or.inl ⟨r', f1, f2, fun t n h => f3 t n (removeLang_blocked hu h)⟩
      · right
        have hmore : ∀ n, grpHas d m (i + 1) n → grpHas d (m + 1) i n := fun n ⟨j, h1, h2, h3⟩ => ⟨j, by omega, by omega, h3⟩
        refine ⟨r', m + 1, f1, by omega, ?_, fun h => by omega, fun n hn => ?_, fun t n l h => ?_⟩
        · rw [show i + (m + 1) = i + 1 + m by omega]
          exact Classical.byContradiction fun h => removeLang_blocked hu h f3
        · obtain ⟨j, h1, h2, h3⟩ := hn
          by_cases hn' : grpHas d m (i + 1) n
          · exact f4 n hn'
          · have : j = i := Decidable.byContradiction fun hj => hn' ⟨j, by omega, by omega, h3⟩
            subst this
            rw [f5 _ _ _ (fun h => hn' h.2.2), e2, if_pos ⟨rfl, h3, rfl⟩]
        · rw [f5 t n l (fun ⟨h1, h2, h3⟩ => h ⟨h1, h2, hmore n h3⟩), e2,
            if_neg (fun ⟨h1, h2, h3⟩ => h ⟨h1, h3, h2 ▸ ⟨i, Nat.le_refl _, by omega, rfl⟩⟩)]

/-- C87: removing a group that throws has either changed nothing, or one of its images, number `m`, has something that is no directory in
    its place: then the images in front of it are gone, in this language, and everything else is there, also the group. Missing: the
    statement that nothing has changed, which is false in the second case. -/
theorem C87_remove_partial (r : ResDir) (k : IcKind) (key : ResKey) (lang : Nat) (hu : r.Unique) (e : Fault)
    (h : (r.removeGroup k key lang).2 = .error e) :
    (r.removeGroup k key lang).1 = r ∨
    ∃ cp d m, r.getData k.grpType key lang = .ok (cp, d) ∧ m < rd 2 d 4 ∧ r.Blocked k.imgType (.id (rd 2 d (6 + 14 * m + 12))) ∧
      (r.removeGroup k key lang).1.getData k.grpType key lang = .ok (cp, d) ∧
      (∀ j, j < m → (r.removeGroup k key lang).1.entry3 k.imgType (.id (rd 2 d (6 + 14 * j + 12))) (.id lang) = none) ∧
      (∀ t n l, (∀ j, j < m → (t, n, l) ≠ (k.imgType, .id (rd 2 d (6 + 14 * j + 12)), .id lang)) →
        (r.removeGroup k key lang).1.entry3 t n l = r.entry3 t n l) := by
  have hnum : ∀ d j, rd 2 (grpEntry d j) 12 = rd 2 d (6 + 14 * j + 12) := fun d j => by
    unfold grpEntry; rw [rd_slice (by omega), Nat.mul_comm]
  cases hd : r.getData k.grpType key lang with
  | error e => left; unfold ResDir.removeGroup; rw [hd]; rfl
  | ok x =>
    obtain ⟨cp, d⟩ := x
    by_cases hl : 6 + 14 * rd 2 d 4 ≤ d.length
    · have hun : r.removeGroup k key lang = (match icRemoveAll k d lang (rd 2 d 4) 0 r with
        | (r, .error e) => (r, .error e)
        | (r, .ok ()) => r.removeLang k.grpType key lang) := by
        unfold ResDir.removeGroup
        rw [hd, ok_bind]
        dsimp only
        rw [throwIf, if_neg (by omega), ok_bind, readU_ok (by omega), ok_bind, throwIf, if_neg (by omega), ok_bind]
        rfl
      rcases icRemoveAll_cases k d lang (rd 2 d 4) 0 r (by omega) hu with ⟨r1, f1, f2, f3⟩ | ⟨r1, m, f1, f2, f3, _, f4, f5⟩
      · exfalso
        rw [hun, f1] at h
        dsimp only at h
        have hgb : ¬ r.Blocked k.grpType key := fun hb => by
          have := blocked_no_group (lang := lang) hb
          rw [groupData_none] at this
          exact this _ hd
        rw [(C34_remove_language r1 k.grpType key lang f2 (f3 _ _ hgb)).1] at h
        cases h
      · right
        have hr : (r.removeGroup k key lang).1 = r1 := by rw [hun, f1]; rfl
        rw [hr]
        refine ⟨cp, d, m, rfl, f2, by rw [← hnum]; simpa using f3, ?_, fun j hj => ?_, fun t n l hne => ?_⟩
        · rw [getData_ok, f5 _ _ _ (fun h => img_ne_grp k h.1), ← getData_ok]; exact hd
        · rw [← hnum]; exact f4 _ ⟨j, Nat.zero_le _, by omega, rfl⟩
        · refine f5 t n l (fun ⟨a, b, j, _, hj, c⟩ => hne j (by omega) ?_)
          rw [a, b, c, hnum]
    · left
      unfold ResDir.removeGroup
      rw [hd, ok_bind]
      dsimp only
      by_cases h6 : d.length < 6
      · rw [throwIf, if_pos h6]; rfl
      · rw [throwIf, if_neg h6, ok_bind, readU_ok (by omega), ok_bind, throwIf, if_pos (by omega)]; rfl

/-- C87: removing a group is all or nothing if nothing is in the place of its images. -/
theorem C87_remove (r : ResDir) (k : IcKind) (key : ResKey) (lang : Nat) (hu : r.Unique)
    (hb : ∀ cp d, r.getData k.grpType key lang = .ok (cp, d) → ∀ j, j < rd 2 d 4 → ¬ r.Blocked k.imgType (.id (rd 2 d (6 + 14 * j + 12)))) :
    AllOrNothing r (r.removeGroup k key lang) := fun e h => by
  rcases C87_remove_partial r k key lang hu e h with h | ⟨cp, d, m, h1, h2, h3, _⟩
  · exact h
  · exact absurd h3 (hb cp d h1 m h2)

/-! ### Examples and counterexamples -/

/-- A tree in which the name 7 of the groups of icons has data in its place. -/
def blockedTree : ResDir :=
  { es := [.dir (.id 3) {} [.dir (.id 1) {} [.data (.id 1033) 0 [5]]], .dir (.id 14) {} [.data (.id 7) 0 [1, 2, 3]]] }

theorem blockedTree_room : blockedTree.Room (.id 3) false (rd 2 demoIco 4) := by
  rw [show rd 2 demoIco 4 = 2 from rfl]
  have hs : blockedTree.sub [.id 3] = some { es := [.dir (.id 1) {} [.data (.id 1033) 0 [5]]] } := rfl
  have hu : ∀ x, blockedTree.Used (.id 3) x → x = 1 := by
    rintro x ⟨d, hd, hx⟩
    rw [hs] at hd
    cases hd
    simpa [ResEntry.key] using hx
  refine ⟨fun h => ?_, fun x hx => ?_, ?_⟩
  · rw [hs] at h; cases h
  · have := hu x hx; omega
  · rw [if_neg (by decide)]
    intro x hx
    have := hu x hx; omega

/-- C87: `add_icon` throws and leaves two images that no group has. -/
theorem C87_orphan_images : (blockedTree.addIcons .icon demoIco (.id 7) 1033 false 0 5).2 = throwE .resourceDirectoryEntryError ∧
    blockedTree.listIds (.id 3) = .ok [1] ∧
    (blockedTree.addIcons .icon demoIco (.id 7) 1033 false 0 5).1.listIds (.id 3) = .ok [1, 2, 3] := by decide +kernel

/-- The hypotheses of `C87_add_orphans` and `C87_add_partial` hold for it. -/
example : ∃ r', ∃ nums : List Nat, blockedTree.addIcons .icon demoIco (.id 7) 1033 false 0 5 = (r', throwE .resourceDirectoryEntryError) ∧
    nums.length = 2 ∧ (blockedTree.addIcons .icon demoIco (.id 7) 1033 false 0 5).1 ≠ blockedTree := by
  obtain ⟨r', nums, h1, h2, _⟩ := C87_add_orphans blockedTree .icon demoIco (.id 7) 1033 false 0 5 demoIco_ok blockedTree_room
    (fun e he => by
      have : e = .dir (.id 3) {} [.dir (.id 1) {} [.data (.id 1033) 0 [5]]] := (Option.some.inj he).symm
      subst this; exact fun h => h)
    (Or.inr ⟨{ es := [.data (.id 7) 0 [1, 2, 3]] }, .data (.id 7) 0 [1, 2, 3], rfl, rfl, trivial⟩)
  refine ⟨r', nums, h1, h2, fun h => ?_⟩
  have h3 := C87_orphan_images
  rw [h, h3.2.1] at h3
  exact absurd h3.2.2 (by decide)

/-- The hypotheses of `C87_add` hold where the call throws: a file that is too short. -/
example : (blockedTree.addIcons .icon [1, 2, 3] (.id 8) 1033 false 0 5).2 = throwE .resourceIncorrectIcon ∧
    (blockedTree.addIcons .icon [1, 2, 3] (.id 8) 1033 false 0 5).1.listIds (.id 3) = .ok [1] := by decide +kernel

/-- A group of three images, the second of which is data where a directory of languages is expected. -/
def halfTree : ResDir :=
  { es := [.dir (.id 3) {} [.dir (.id 1) {} [.data (.id 1033) 0 [5]], .data (.id 2) 0 [6], .dir (.id 3) {} [.data (.id 1033) 0 [7]]],
           .dir (.id 14) {} [.dir (.id 9) {} [.data (.id 1033) 0 ([0, 0, 1, 0, 3, 0] ++
              ([1, 1, 0, 0, 1, 0, 1, 0, 1, 0, 0, 0] ++ [1, 0]) ++ ([1, 1, 0, 0, 1, 0, 1, 0, 1, 0, 0, 0] ++ [2, 0]) ++
              ([1, 1, 0, 0, 1, 0, 1, 0, 1, 0, 0, 0] ++ [3, 0]))]]] }

/-- C87: `remove_icon_group` throws and has removed the first image of the group, which is still there. -/
theorem C87_half_removed : (halfTree.removeGroup .icon (.id 9) 1033).2 = throwE .resourceDirectoryEntryError ∧
    halfTree.listIds (.id 3) = .ok [1, 2, 3] ∧ (halfTree.removeGroup .icon (.id 9) 1033).1.listIds (.id 3) = .ok [2, 3] ∧
    (halfTree.removeGroup .icon (.id 9) 1033).1.listIds (.id 14) = .ok [9] := by decide +kernel

theorem unique_of_all {h : ResHdr} {es : List ResEntry} (h1 : (es.map ResEntry.key).Nodup)
    (h2 : ∀ e ∈ es, ∀ d, dirOf (some e) = some d → d.Unique) : ({ h := h, es := es } : ResDir).Unique := by
  refine (unique_iff h es).mpr ⟨h1, fun k d hd => ?_⟩
  cases hl : lk es k with
  | none => rw [hl] at hd; cases hd
  | some e => rw [hl] at hd; exact h2 e (lk_mem hl) d hd

theorem unique_data {h : ResHdr} {k : ResKey} {cp : Nat} {x : Bytes} : ({ h := h, es := [.data k cp x] } : ResDir).Unique :=
  unique_of_all (by simp) (fun e he d hd => by rw [List.mem_singleton.mp he] at hd; cases hd)

theorem halfTree_unique : halfTree.Unique := by
  unfold halfTree
  refine unique_of_all (by decide) (fun e he d hd => ?_)
  rcases List.mem_cons.mp he with rfl | he
  · cases hd
    refine unique_of_all (by decide) (fun e he d hd => ?_)
    rcases List.mem_cons.mp he with rfl | he
    · cases hd; exact unique_data
    · rcases List.mem_cons.mp he with rfl | he
      · cases hd
      · rw [List.mem_singleton.mp he] at hd; cases hd; exact unique_data
  · rw [List.mem_singleton.mp he] at hd
    cases hd
    refine unique_of_all (by decide) (fun e he d hd => ?_)
    rw [List.mem_singleton.mp he] at hd
    cases hd
    exact unique_data

/-- The hypotheses of `C87_remove_partial` hold for it, in the second case. -/
example : ∃ cp d m, halfTree.getData (.id 14) (.id 9) 1033 = .ok (cp, d) ∧ m < rd 2 d 4 ∧
    halfTree.Blocked (.id 3) (.id (rd 2 d (6 + 14 * m + 12))) := by
  have h := C87_half_removed
  rcases C87_remove_partial halfTree .icon (.id 9) 1033 halfTree_unique _ h.1 with h1 | ⟨cp, d, m, h1, h2, h3, _⟩
  · rw [h1, h.2.1] at h
    exact absurd h.2.2.1 (by decide)
  · exact ⟨cp, d, m, h1, h2, h3⟩

/-- The hypotheses of `C87_remove` hold where the call throws: there is no such group. -/
example : AllOrNothing halfTree (halfTree.removeGroup .icon (.id 8) 1033) ∧
    (halfTree.removeGroup .icon (.id 8) 1033).2 = throwE .resourceDirectoryEntryNotFound := by
  have hn : halfTree.getData (.id 14) (.id 8) 1033 = throwE .resourceDirectoryEntryNotFound := by decide +kernel
  refine ⟨C87_remove halfTree .icon (.id 8) 1033 halfTree_unique (fun cp d hd => ?_), by decide +kernel⟩
  rw [show IcKind.icon.grpType = .id 14 from rfl, hn] at hd
  cases hd

/-- `C87_manager` and `C87_bitmap_version` where the calls throw. -/
example : (blockedTree.addResource [1] (.id 14) (.id 7) 0 0 0).2 = throwE .resourceDirectoryEntryError ∧
    (blockedTree.removeLang (.id 14) (.id 7) 0).2 = throwE .resourceDirectoryEntryError ∧
    (blockedTree.addBitmap [1] (.id 7) 0 0 0).2 = throwE .resourceIncorrectBitmap := by decide +kernel

end PE
