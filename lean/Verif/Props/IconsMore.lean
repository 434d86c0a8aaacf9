/-
C60: safety of the functions for icons and cursors. C61: single images. C62: removing groups.
-/
import Verif.Props.Icons

namespace PE

/-! ### C62: removing -/

theorem unique_iff (h : ResHdr) (es : List ResEntry) : ({ h := h, es := es } : ResDir).Unique ↔
    (es.map ResEntry.key).Nodup ∧ ∀ k d, dirOf (lk es k) = some d → d.Unique := by
  unfold ResDir.Unique
  constructor
  · intro hu
    refine ⟨hu [] _ rfl, fun k d hd path a ha => ?_⟩
    refine hu (k :: path) a ?_
    rw [sub_cons]
    dsimp only
    rw [hd]
    exact ha
  · rintro ⟨h1, h2⟩ path a ha
    cases path with
    | nil => cases ha; exact h1
    | cons k ks =>
      rw [sub_cons] at ha
      dsimp only at ha
      cases hd : dirOf (lk es k) with
      | none => rw [hd] at ha; cases ha
      | some d => rw [hd] at ha; exact h2 k d hd ks a ha

theorem unique_erase {h : ResHdr} {es : List ResEntry} {k : ResKey} {i : Nat} (hu : ({ h := h, es := es } : ResDir).Unique)
    (hi : findKey es k = some i) : ({ h := h, es := es.eraseIdx i } : ResDir).Unique := by
  rw [unique_iff] at hu ⊢
  obtain ⟨h1, h2⟩ := hu
  have u := upd_erase hi (count_of_nodup h1 k)
  refine ⟨?_, fun k' d hd => ?_⟩
  · exact h1.sublist ((List.eraseIdx_sublist es i).map _)
  · by_cases hk : k' = k
    · subst hk; rw [u.1] at hd; cases hd
    · rw [u.2 k' hk] at hd; exact h2 k' d hd

theorem unique_set {h : ResHdr} {es : List ResEntry} {k : ResKey} {i : Nat} {e e' : ResEntry} (hu : ({ h := h, es := es } : ResDir).Unique)
    (hi : findKey es k = some i) (he : es[i]? = some e) (hk : e'.key = e.key) (hek : e'.key = k)
    (hd : ∀ d, dirOf (some e') = some d → d.Unique) :
    ({ h := h, es := es.set i e' } : ResDir).Unique := by
  rw [unique_iff] at hu ⊢
  obtain ⟨h1, h2⟩ := hu
  have u := upd_set hi hek
  refine ⟨by rw [map_set_key he hk]; exact h1, fun k' d hd' => ?_⟩
  by_cases hk : k' = k
  · subst hk; rw [u.1] at hd'; exact hd d hd'
  · rw [u.2 k' hk] at hd'; exact h2 k' d hd'

/-- Removing one language leaves keys unique and puts nothing new in the way. -/
theorem removeLang_levels (r : ResDir) (t n : ResKey) (lang : Nat) (hu : r.Unique) :
    (r.removeLang t n lang).1.Unique ∧
    (∀ t' e, lk (r.removeLang t n lang).1.es t' = some e → e.NotDir → lk r.es t' = some e) ∧
    (∀ t' n' e, (r.removeLang t n lang).1.second t' n' = some e → e.NotDir → r.second t' n' = some e) := by
  have triv : r.Unique ∧ (∀ t' e, lk r.es t' = some e → e.NotDir → lk r.es t' = some e) ∧
      (∀ t' n' e, r.second t' n' = some e → e.NotDir → r.second t' n' = some e) := ⟨hu, fun _ _ h _ => h, fun _ _ _ h _ => h⟩
  have hu' := (unique_iff r.h r.es).mp hu
  unfold ResDir.removeLang
  cases h : findKey r.es t with
  | none => exact triv
  | some i =>
    obtain ⟨e, h1, h2⟩ := findKey_some h
    dsimp only
    rw [h1]
    cases e with
    | empty => exact triv
    | data => exact triv
    | dir k hh es =>
      have hk : k = t := lk_key h2
      subst hk
      have hes : ({ h := hh, es := es } : ResDir).Unique := hu'.2 k _ (by rw [h2]; rfl)
      have hes' := (unique_iff hh es).mp hes
      have hsec : ∀ n', r.second k n' = lk es n' := fun n' => by unfold ResDir.second; rw [h2]; rfl
      dsimp only
      cases g : findKey es n with
      | none => exact triv
      | some j =>
        obtain ⟨e2, g1, g2⟩ := findKey_some g
        dsimp only
        rw [g1]
        cases e2 with
        | empty => exact triv
        | data => exact triv
        | dir k' hh2 es2 =>
          have hk' : k' = n := lk_key g2
          subst hk'
          have hes2 : ({ h := hh2, es := es2 } : ResDir).Unique := hes'.2 k' _ (by rw [g2]; rfl)
          dsimp only
          cases f : findKey es2 (.id lang) with
          | none => exact triv
          | some m =>
            dsimp only
            -- replacing the directory of the type
            have put : ∀ es', ({ h := hh, es := es' } : ResDir).Unique →
                (∀ n' e, lk es' n' = some e → e.NotDir → lk es n' = some e) →
                ({ r with es := r.es.set i (.dir k hh es') } : ResDir).Unique ∧
                (∀ t' e, lk (r.es.set i (.dir k hh es')) t' = some e → e.NotDir → lk r.es t' = some e) ∧
                (∀ t' n' e, ({ r with es := r.es.set i (.dir k hh es') } : ResDir).second t' n' = some e → e.NotDir →
                  r.second t' n' = some e) := by
              intro es' hun hnd
              have u := upd_set h (e := ResEntry.dir k hh es') rfl
              refine ⟨?_, fun t' e he hn => ?_, fun t' n' e he hn => ?_⟩
              · exact unique_set (h := r.h) (e' := ResEntry.dir k hh es') hu h h1 rfl rfl (fun d hd => by cases hd; exact hun)
              · by_cases ht : t' = k
                · subst ht; rw [u.1] at he; cases he; exact hn.elim
                · rw [u.2 t' ht] at he; exact he
              · by_cases ht : t' = k
                · subst ht
                  rw [hsec]
                  unfold ResDir.second at he
                  dsimp only at he
                  rw [u.1] at he
                  exact hnd n' e he hn
                · unfold ResDir.second at he ⊢
                  dsimp only at he
                  rw [u.2 t' ht] at he
                  exact he
            have uj := upd_erase g (count_of_nodup hes'.1 k')
            by_cases hem : (es2.eraseIdx m).isEmpty = true
            · rw [if_pos hem]
              by_cases hem2 : (es.eraseIdx j).isEmpty = true
              · rw [if_pos hem2]
                have u := upd_erase h (count_of_nodup hu'.1 k)
                refine ⟨unique_erase (h := r.h) hu h, fun t' e he hn => ?_, fun t' n' e he hn => ?_⟩
                · dsimp only at he
                  by_cases ht : t' = k
                  · subst ht; rw [u.1] at he; cases he
                  · rw [u.2 t' ht] at he; exact he
                · unfold ResDir.second at he ⊢
                  dsimp only at he
                  by_cases ht : t' = k
                  · subst ht; rw [u.1] at he; cases he
                  · rw [u.2 t' ht] at he; exact he
              · rw [if_neg hem2]
                refine put _ (unique_erase hes g) (fun n' e he hn => ?_)
                by_cases hn' : n' = k'
                · subst hn'; rw [uj.1] at he; cases he
                · rw [uj.2 n' hn'] at he; exact he
            · rw [if_neg hem]
              refine put _ (unique_set hes g g1 rfl rfl (fun d hd => by cases hd; exact unique_erase hes2 f)) (fun n' e he hn => ?_)
              have us := upd_set g (e := ResEntry.dir k' hh2 (es2.eraseIdx m)) rfl
              by_cases hn' : n' = k'
              · subst hn'; rw [us.1] at he; cases he; exact hn.elim
              · rw [us.2 n' hn'] at he; exact he

theorem removeLang_blocked {r : ResDir} {t n : ResKey} {lang : Nat} (hu : r.Unique) {t' n' : ResKey} (h : ¬ r.Blocked t' n') :
    ¬ (r.removeLang t n lang).1.Blocked t' n' := by
  obtain ⟨_, h2, h3⟩ := removeLang_levels r t n lang hu
  rw [blocked_iff] at h ⊢
  rintro (⟨e, he, hn⟩ | ⟨e, he, hn⟩)
  · exact h (Or.inl ⟨e, h2 _ _ he hn, hn⟩)
  · exact h (Or.inr ⟨e, h3 _ _ _ he hn, hn⟩)

/-- `n` is the name of one of the images `i`, …, `i + c - 1` of the group. -/
def grpHas (d : Bytes) (c i : Nat) (n : ResKey) : Prop := ∃ j, i ≤ j ∧ j < i + c ∧ n = .id (rd 2 (grpEntry d j) 12)

theorem icRemoveAll_spec (k : IcKind) (d : Bytes) (lang : Nat) : ∀ (c i : Nat) (r : ResDir), 6 + 14 * (i + c) ≤ d.length → r.Unique →
    (∀ n, grpHas d c i n → ¬ r.Blocked k.imgType n) →
    ∃ r', icRemoveAll k d lang c i r = (r', .ok ()) ∧ r'.Unique ∧ (∀ t n, ¬ r.Blocked t n → ¬ r'.Blocked t n) ∧
      (∀ n, grpHas d c i n → r'.entry3 k.imgType n (.id lang) = none) ∧
      (∀ t n l, ¬ (t = k.imgType ∧ l = .id lang ∧ grpHas d c i n) → r'.entry3 t n l = r.entry3 t n l) := by
  intro c
  induction c with
  | zero =>
    intro i r _ hu _
    exact ⟨r, rfl, hu, fun _ _ h => h, fun n ⟨j, h1, h2, _⟩ => by omega, fun _ _ _ _ => rfl⟩
  | succ c ih =>
    intro i r hl hu hb
    have hhere : grpHas d (c + 1) i (.id (rd 2 (grpEntry d i) 12)) := ⟨i, Nat.le_refl _, by omega, rfl⟩
    have hmore : ∀ n, grpHas d c (i + 1) n → grpHas d (c + 1) i n := fun n ⟨j, h1, h2, h3⟩ => ⟨j, by omega, by omega, h3⟩
    have hsplit : ∀ n, grpHas d (c + 1) i n → n = .id (rd 2 (grpEntry d i) 12) ∨ grpHas d c (i + 1) n := by
      rintro n ⟨j, h1, h2, h3⟩
      by_cases hj : j = i
      · subst hj; exact Or.inl h3
      · exact Or.inr ⟨j, by omega, by omega, h3⟩
    obtain ⟨e1, e2, _⟩ := C34_remove_language r k.imgType (.id (rd 2 (grpEntry d i) 12)) lang hu (hb _ hhere)
    obtain ⟨r', f1, f2, f3, f4, f5⟩ := ih (i + 1) (r.removeLang k.imgType (.id (rd 2 (grpEntry d i) 12)) lang).1 (by omega)
      (removeLang_levels r _ _ lang hu).1 (fun n hn => removeLang_blocked hu (hb n (hmore n hn)))
    refine ⟨r', ?_, f2, fun t n h => f3 t n (removeLang_blocked hu h), fun n hn => ?_, fun t n l h => ?_⟩
    · rw [icRemoveAll, readN_ok (by omega)]
      dsimp only
      rw [show slice d (6 + i * 14) 14 = grpEntry d i from rfl]
      cases hr : r.removeLang k.imgType (.id (rd 2 (grpEntry d i) 12)) lang with
      | mk r1 res =>
        rw [hr] at e1 f1
        dsimp only at e1 f1
        subst e1
        exact f1
    · rcases hsplit n hn with rfl | h
      · by_cases hn' : grpHas d c (i + 1) (.id (rd 2 (grpEntry d i) 12))
        · exact f4 _ hn'
        · rw [f5 _ _ _ (fun h => hn' h.2.2), e2, if_pos ⟨rfl, rfl, rfl⟩]
      · exact f4 n h
    · rw [f5 t n l (fun ⟨h1, h2, h3⟩ => h ⟨h1, h2, hmore n h3⟩), e2, if_neg (fun ⟨h1, h2, h3⟩ => h ⟨h1, h3, h2 ▸ hhere⟩)]

/-- C62: removing a group removes it and the images its entries name, in this language, and nothing else. -/
theorem C62_remove_group (r : ResDir) (k : IcKind) (key : ResKey) (lang cp : Nat) (d : Bytes) (hu : r.Unique)
    (hd : r.getData k.grpType key lang = .ok (cp, d)) (hl : 6 + 14 * rd 2 d 4 ≤ d.length)
    (hb : ∀ j, j < rd 2 d 4 → ¬ r.Blocked k.imgType (.id (rd 2 d (6 + 14 * j + 12)))) :
    ∃ r', r.removeGroup k key lang = (r', .ok true) ∧ r'.entry3 k.grpType key (.id lang) = none ∧
      (∀ j, j < rd 2 d 4 → r'.entry3 k.imgType (.id (rd 2 d (6 + 14 * j + 12))) (.id lang) = none) ∧
      (∀ t n l, (t, n, l) ≠ (k.grpType, key, .id lang) →
        (∀ j, j < rd 2 d 4 → (t, n, l) ≠ (k.imgType, .id (rd 2 d (6 + 14 * j + 12)), .id lang)) → r'.entry3 t n l = r.entry3 t n l) := by
  have hnum : ∀ j, rd 2 (grpEntry d j) 12 = rd 2 d (6 + 14 * j + 12) := fun j => by
    unfold grpEntry; rw [rd_slice (by omega), Nat.mul_comm]
  have hgb : ¬ r.Blocked k.grpType key := by
    rw [blocked_iff]
    have h3 := getData_ok.mp hd
    rw [entry3_second] at h3
    rintro (⟨e, he, hn⟩ | ⟨e, he, hn⟩)
    · unfold ResDir.second at h3; rw [he, notDir_dirOf hn] at h3; cases h3
    · rw [he, notDir_dirOf hn] at h3; cases h3
  obtain ⟨r1, f1, f2, f3, f4, f5⟩ := icRemoveAll_spec k d lang (rd 2 d 4) 0 r (by omega) hu (fun n ⟨j, _, hj, e⟩ => by
    rw [e, hnum]; exact hb j (by omega))
  obtain ⟨e1, e2, _⟩ := C34_remove_language r1 k.grpType key lang f2 (f3 _ _ hgb)
  have hstill : r1.entry3 k.grpType key (.id lang) = r.entry3 k.grpType key (.id lang) := f5 _ _ _ (fun h => img_ne_grp k h.1)
  refine ⟨(r1.removeLang k.grpType key lang).1, ?_, ?_, fun j hj => ?_, fun t n l h1 h2 => ?_⟩
  · unfold ResDir.removeGroup
    rw [hd, ok_bind]
    dsimp only
    rw [throwIf, if_neg (by omega), ok_bind, readU_ok (by omega), ok_bind, throwIf, if_neg (by omega), ok_bind]
    dsimp only
    rw [f1]
    dsimp only
    rw [hstill, getData_ok.mp hd] at e1
    exact Prod.ext rfl e1
  · rw [e2, if_pos ⟨rfl, rfl, rfl⟩]
  · rw [e2, if_neg (fun h => img_ne_grp k h.1.symm), ← hnum]
    exact f4 _ ⟨j, Nat.zero_le _, by omega, rfl⟩
  · rw [e2, if_neg (fun ⟨a, b, c⟩ => h1 (by rw [a, b, c])), f5 t n l (fun ⟨a, b, j, _, hj, c⟩ => by
      refine h2 j (by omega) ?_
      rw [a, b, c, hnum])]

/-- C62: other groups can be read as before if they have no images in common with the removed one. -/
theorem C62_other_groups (r r' : ResDir) (k : IcKind) (key key' : ResKey) (lang cp cp' : Nat) (d d' : Bytes) (F : Bytes) (hu : r.Unique)
    (hd : r.getData k.grpType key lang = .ok (cp, d)) (hl : 6 + 14 * rd 2 d 4 ≤ d.length)
    (hb : ∀ j, j < rd 2 d 4 → ¬ r.Blocked k.imgType (.id (rd 2 d (6 + 14 * j + 12)))) (hr : (r.removeGroup k key lang).1 = r')
    (hne : key' ≠ key) (hd' : r.getData k.grpType key' lang = .ok (cp', d'))
    (hdis : ∀ i j, i < rd 2 d 4 → j < rd 2 d' 4 → rd 2 d (6 + 14 * i + 12) ≠ rd 2 d' (6 + 14 * j + 12))
    (hF : r.getIcons k key' lang = .ok F) : r'.getIcons k key' lang = .ok F := by
  obtain ⟨r2, e, _, _, hk⟩ := C62_remove_group r k key lang cp d hu hd hl hb
  rw [e] at hr
  dsimp only at hr
  subst hr
  unfold ResDir.getIcons at hF ⊢
  have hd2 : r2.getData k.grpType key' lang = .ok (cp', d') := by
    rw [getData_ok, hk k.grpType key' (.id lang) (fun h => hne (by injection h with _ h; injection h)) (fun j _ h => img_ne_grp k (congrArg Prod.fst h)),
      ← getData_ok]
    exact hd'
  rw [hd', ok_bind] at hF
  rw [hd2, ok_bind]
  dsimp only at hF ⊢
  obtain ⟨h1, h2, L, h3, h4, h5⟩ := (icRead_iff _ _ _ _).mp hF
  refine (icRead_iff _ _ _ _).mpr ⟨h1, h2, L, h3, fun j p hj => ?_, h5⟩
  obtain ⟨x, g1, g2, g3⟩ := h4 j p hj
  have hjl := (List.getElem?_eq_some_iff.mp hj).1
  have hnum : rd 2 (grpEntry d' j) 12 = rd 2 d' (6 + 14 * j + 12) := by
    unfold grpEntry; rw [rd_slice (by omega), Nat.mul_comm]
  refine ⟨x, ?_, g2, g3⟩
  obtain ⟨c, hc⟩ := imgData_ok.mp g1
  refine imgData_ok.mpr ⟨c, ?_⟩
  rw [getData_ok, hk k.imgType (.id (rd 2 (grpEntry d' j) 12)) (.id lang) (fun h => img_ne_grp k (congrArg Prod.fst h).symm) (fun i hi h => ?_), ← getData_ok]
  · exact hc
  · injection h with _ h
    injection h with h _
    injection h with h
    rw [hnum] at h
    exact hdis i j hi (by omega) h.symm

/-- The hypotheses of `C62_remove_group` hold: the group that was added to the demo tree is removed again, and the icons from before
    are there. -/
example : (demoIconTree2.removeGroup .icon (.id 1) 1033).2 = .ok true ∧
    (demoIconTree2.removeGroup .icon (.id 1) 1033).1.listIds (.id 3) = .ok [8, 1, 3, 7, 4] ∧
    (demoIconTree2.removeGroup .icon (.id 1) 1033).1.listTypes = [3] := by decide +kernel

/-- Two groups with a common image. -/
def sharedTree : ResDir :=
  { es := [.dir (.id 3) {} [.dir (.id 1) {} [.data (.id 0) 0 [5]]],
           .dir (.id 14) {} [.dir (.id 1) {} [.data (.id 0) 0 ([0, 0, 1, 0, 1, 0] ++ [1, 1, 0, 0, 1, 0, 1, 0, 1, 0, 0, 0] ++ [1, 0])],
                             .dir (.id 2) {} [.data (.id 0) 0 ([0, 0, 1, 0, 1, 0] ++ [1, 1, 0, 0, 1, 0, 1, 0, 1, 0, 0, 0] ++ [1, 0])]]] }

/-- C62: groups can have images in common; after one of them is removed the other one cannot be read. -/
theorem C62_shared_images : (∃ F, sharedTree.getIcons .icon (.id 2) 0 = .ok F) ∧ (sharedTree.removeGroup .icon (.id 1) 0).2 = .ok true ∧
    (sharedTree.removeGroup .icon (.id 1) 0).1.getIcons .icon (.id 2) 0 = throwE .resourceDirectoryEntryNotFound :=
  ⟨⟨[0, 0, 1, 0, 1, 0] ++ [1, 1, 0, 0, 1, 0, 1, 0, 1, 0, 0, 0] ++ [22, 0, 0, 0] ++ [5], by decide +kernel⟩, by decide +kernel, by decide +kernel⟩

/-! ### C60: safety -/

theorem entryBy_noUB (r : ResDir) (k : ResKey) : NoUB (r.entryBy k) := by
  rw [entryBy_eq]; split
  · exact NoUB.ok _
  · exact NoUB.throwE _

theorem entryDir_noUB (e : ResEntry) : NoUB e.getDir := by
  cases e <;> first | exact NoUB.ok _ | exact NoUB.throwE _

theorem entryData_noUB (e : ResEntry) : NoUB e.getData := by
  cases e <;> first | exact NoUB.ok _ | exact NoUB.throwE _

theorem typeDir_noUB (r : ResDir) (t : ResKey) : NoUB (r.typeDir t) := NoUB.bind (entryBy_noUB r t) fun e _ => entryDir_noUB e

theorem nameDir_noUB (r : ResDir) (t n : ResKey) : NoUB (r.nameDir t n) :=
  NoUB.bind (typeDir_noUB r t) fun d _ => NoUB.bind (entryBy_noUB d n) fun e _ => entryDir_noUB e

theorem getData_noUB (r : ResDir) (t n : ResKey) (lang : Nat) : NoUB (r.getData t n lang) :=
  NoUB.bind (nameDir_noUB r t n) fun d _ => NoUB.bind (entryBy_noUB d _) fun e _ => entryData_noUB e

theorem getDataAt_noUB (r : ResDir) (t n : ResKey) (i : Nat) : NoUB (r.getDataAt t n i) := by
  refine NoUB.bind (nameDir_noUB r t n) fun d _ => ?_
  split
  · exact NoUB.throwE _
  · exact entryData_noUB _

theorem imgData_noUB (r : ResDir) (k : IcKind) (lang num : Nat) : NoUB (r.imgData k lang num) :=
  NoUB.bind (getData_noUB _ _ _ _) fun _ _ => NoUB.ok _

theorem imgDataAt_noUB (r : ResDir) (k : IcKind) (i num : Nat) : NoUB (r.imgDataAt k i num) :=
  NoUB.bind (getDataAt_noUB _ _ _ _) fun _ _ => NoUB.ok _

theorem hotspot_noUB (k : IcKind) (get : Nat → Res Bytes) (hg : ∀ n, NoUB (get n)) (n : Nat) : NoUB (k.hotspot get n) := by
  cases k with
  | icon => exact NoUB.ok _
  | cursor => exact NoUB.bind (hg n) fun _ _ => NoUB.bind (NoUB.throwIf _ _) fun _ _ => NoUB.ok _

theorem image_noUB (k : IcKind) (x : Bytes) : NoUB (k.image x) := by
  cases k with
  | icon => exact NoUB.ok _
  | cursor =>
    unfold IcKind.image
    dsimp only
    split
    · exact NoUB.throwE _
    · exact NoUB.ok _

theorem icRead_noUB (k : IcKind) (get : Nat → Res Bytes) (hg : ∀ n, NoUB (get n)) (d : Bytes) : NoUB (icRead k get d) := by
  unfold icRead
  refine NoUB.bind (NoUB.throwIf _ _) fun _ h1 => ?_
  unfold throwIf at h1
  split at h1
  · cases h1
  rename_i h1
  rw [readU_ok (by omega), ok_bind]
  refine NoUB.bind (NoUB.throwIf _ _) fun _ h2 => ?_
  unfold throwIf at h2
  split at h2
  · cases h2
  rename_i h2
  rw [readN_ok (by omega), ok_bind]
  have hh : ∀ n i off acc, 6 + 14 * (i + n) ≤ d.length → NoUB (icHeaders k get d n i off acc) := by
    intro n
    induction n with
    | zero => intro i off acc _; exact NoUB.ok _
    | succ n ih =>
      intro i off acc hl
      rw [icHeaders, readN_ok (by omega), ok_bind]
      exact NoUB.bind (hotspot_noUB k get hg _) fun _ _ => ih _ _ _ (by omega)
  have hb : ∀ n i acc, 6 + 14 * (i + n) ≤ d.length → NoUB (icBodies k get d n i acc) := by
    intro n
    induction n with
    | zero => intro i acc _; exact NoUB.ok _
    | succ n ih =>
      intro i acc hl
      rw [icBodies, readN_ok (by omega), ok_bind]
      exact NoUB.bind (hg _) fun _ _ => NoUB.bind (image_noUB k _) fun _ _ => ih _ _ (by omega)
  exact NoUB.bind (hh _ _ _ _ (by omega)) fun _ _ => hb _ _ _ (by omega)

/-- C60: reading a group of icons or cursors, by language or by index, reads nothing outside of the data, for all trees. -/
theorem C60_read_groups (r : ResDir) (k : IcKind) (key : ResKey) (lang index : Nat) :
    NoUB (r.getIcons k key lang) ∧ NoUB (r.getIconsAt k key index) :=
  ⟨NoUB.bind (getData_noUB _ _ _ _) fun _ _ => icRead_noUB k _ (imgData_noUB r k lang) _,
   NoUB.bind (getDataAt_noUB _ _ _ _) fun _ _ => icRead_noUB k _ (imgDataAt_noUB r k index) _⟩

theorem icSearch_noUB (k : IcKind) (d raw : Bytes) (id : Nat) : ∀ n i, 6 + 14 * (i + n) ≤ d.length → NoUB (icSearch k d raw id n i) := by
  intro n
  induction n with
  | zero => intro i _; exact NoUB.ok _
  | succ n ih =>
    intro i hl
    rw [icSearch, readN_ok (by omega), ok_bind]
    split
    · refine NoUB.bind (hotspot_noUB k _ (fun _ => NoUB.ok _) _) fun _ _ => ?_
      rw [readN_ok (by omega), ok_bind]
      exact NoUB.ok _
    · exact ih _ (by omega)

theorem icPresence_noUB (k : IcKind) (d raw : Bytes) (id : Nat) (hk : k = .icon ∨ 6 + 14 * rd 2 d 4 ≤ d.length) :
    NoUB (icPresence k d raw id) := by
  unfold icPresence
  refine NoUB.bind (NoUB.throwIf _ _) fun _ h1 => ?_
  unfold throwIf at h1
  split at h1
  · cases h1
  rename_i h1
  rw [readU_ok (by omega), ok_bind]
  by_cases hc : d.length < 6 + k.searched (rd 2 d 4)
  · rw [throwIf, if_pos hc]; exact NoUB.throwE _
  · rw [throwIf, if_neg hc, ok_bind]
    refine icSearch_noUB k d raw id _ 0 ?_
    rcases hk with rfl | hk
    · unfold IcKind.searched at hc; dsimp only at hc; omega
    · omega

theorem icLookup_noUB (r : ResDir) (k : IcKind) (raw : Bytes) (id lang : Nat)
    (hk : k = .icon ∨ ∀ key cp d, r.getData k.grpType key lang = .ok (cp, d) → 6 + 14 * rd 2 d 4 ≤ d.length) :
    ∀ keys, NoUB (r.icLookup k raw id lang keys) := by
  intro keys
  induction keys with
  | nil => exact NoUB.ok _
  | cons key keys ih =>
    rw [ResDir.icLookup]
    refine NoUB.bind (NoUB.bind (nameDir_noUB _ _ _) fun _ _ => NoUB.ok _) fun langs _ => ?_
    split
    · refine NoUB.bind (getData_noUB _ _ _ _) fun x hx => ?_
      refine NoUB.bind (icPresence_noUB k _ _ _ (hk.imp (fun h => h) (fun h => h key x.1 x.2 hx))) fun y _ => ?_
      cases y with
      | none => exact ih
      | some h => exact NoUB.ok _
    · exact ih

theorem icGroupOf_noUB (r : ResDir) (k : IcKind) (raw : Bytes) (id lang : Nat)
    (hk : k = .icon ∨ ∀ key cp d, r.getData k.grpType key lang = .ok (cp, d) → 6 + 14 * rd 2 d 4 ≤ d.length) :
    NoUB (r.icGroupOf k raw id lang) := by
  unfold ResDir.icGroupOf
  refine NoUB.bind (NoUB.bind (typeDir_noUB _ _) fun _ _ => NoUB.ok _) fun ids _ => ?_
  refine NoUB.bind (icLookup_noUB r k raw id lang hk _) fun y _ => ?_
  cases y with
  | some h => exact NoUB.ok _
  | none =>
    refine NoUB.bind (NoUB.bind (typeDir_noUB _ _) fun _ _ => NoUB.ok _) fun names _ => ?_
    refine NoUB.bind (icLookup_noUB r k raw id lang hk _) fun y _ => ?_
    cases y with
    | some h => exact NoUB.ok _
    | none => exact NoUB.throwE _

/-- C60: reading a single icon reads nothing outside of the data, for all trees. -/
theorem C60_single_icon (r : ResDir) (lang index id : Nat) : NoUB (r.getSingle .icon lang id) ∧ NoUB (r.getSingleAt .icon index id) := by
  refine ⟨?_, ?_⟩
  · exact NoUB.bind (icGroupOf_noUB r .icon [] id lang (Or.inl rfl)) fun _ _ => NoUB.bind (imgData_noUB _ _ _ _) fun _ _ => NoUB.ok _
  · refine NoUB.bind (NoUB.bind (nameDir_noUB _ _ _) fun _ _ => NoUB.ok _) fun langs _ => ?_
    split
    · exact NoUB.throwE _
    · exact NoUB.bind (icGroupOf_noUB r .icon [] id _ (Or.inl rfl)) fun _ _ => NoUB.bind (imgDataAt_noUB _ _ _ _) fun _ _ => NoUB.ok _

/-- C60: the same for a single cursor, if all groups are as long as they say. Missing: other groups, see `C60_overread`. -/
theorem C60_single_cursor_partial (r : ResDir) (lang id : Nat)
    (hk : ∀ key cp d, r.getData (.id 12) key lang = .ok (cp, d) → 6 + 14 * rd 2 d 4 ≤ d.length) : NoUB (r.getSingle .cursor lang id) :=
  NoUB.bind (imgData_noUB _ _ _ _) fun x _ => NoUB.bind (icGroupOf_noUB r .cursor x id lang (Or.inr hk)) fun _ _ =>
    NoUB.bind (image_noUB .cursor x) fun _ _ => NoUB.ok _

/-- A cursor and a group that says that it has two cursors, but has one entry, with another number. -/
def badCursorTree : ResDir :=
  { es := [.dir (.id 1) {} [.dir (.id 5) {} [.data (.id 0) 0 [1, 0, 1, 0, 9]]],
           .dir (.id 12) {} [.dir (.id 1) {} [.data (.id 0) 0 ([0, 0, 2, 0, 2, 0] ++ [1, 0, 2, 0, 0, 0, 0, 0, 5, 0, 0, 0] ++ [1, 0])]]] }

/-- C60 is false for single cursors: `check_cursor_presence` checks for one entry only and then reads as many as the group says. -/
theorem C60_overread : badCursorTree.getSingle .cursor 0 5 = .error (.ub .oobRead) := by decide +kernel

/-- The hypothesis of `C60_single_cursor_partial` holds for a group with one entry that says one. -/
example : 6 + 14 * rd 2 ([0, 0, 2, 0, 1, 0] ++ [1, 0, 2, 0, 0, 0, 0, 0, 5, 0, 0, 0] ++ [1, 0] : Bytes) 4 ≤
    ([0, 0, 2, 0, 1, 0] ++ [1, 0, 2, 0, 0, 0, 0, 0, 5, 0, 0, 0] ++ [1, 0] : Bytes).length := by decide +kernel

theorem pushRange_noUB (stop count : Nat) : ∀ (m i : Nat) (acc : List Nat), count - acc.length = m → acc.length < count →
    ∃ l, pushRange stop count i acc = .ok l ∧ l.length ≤ count := by
  intro m
  induction m using Nat.strongRecOn with
  | _ m ih =>
    intro i acc hm hl
    rw [pushRange]
    by_cases h1 : i = stop
    · rw [if_pos h1]; exact ⟨acc, rfl, by omega⟩
    · rw [if_neg h1]
      by_cases h2 : acc.length + 1 = count
      · rw [if_pos h2]; exact ⟨_, rfl, by rw [List.length_append]; simp; omega⟩
      · rw [if_neg h2, dif_pos hl]
        exact ih (count - (acc ++ [i]).length) (by rw [List.length_append]; simp; omega) _ _ rfl (by rw [List.length_append]; simp; omega)

theorem gapsFrom_noUB (count : Nat) : ∀ (ids : List Nat) (prev : Nat) (acc : List Nat), acc.length < count →
    ∃ l, gapsFrom count prev ids acc = .ok l := by
  intro ids
  induction ids with
  | nil => intro prev acc _; exact ⟨acc, rfl⟩
  | cons cur ids ih =>
    intro prev acc hl
    rw [gapsFrom]
    have : ∃ l, nextGap count prev cur acc = .ok l ∧ l.length ≤ count := by
      unfold nextGap
      split
      · exact pushRange_noUB _ _ _ _ _ rfl hl
      · exact ⟨acc, rfl, by omega⟩
    obtain ⟨l, e, hle⟩ := this
    rw [e, ok_bind]
    split
    · exact ⟨l, rfl⟩
    · exact ih _ _ (by omega)

/-- The numbering ends, unless there are 65535 new images and no resource of their type. -/
theorem freeIds_ok (r : ResDir) (t : ResKey) (free : Bool) (n : Nat) (h0 : 0 < n) (hn : r.sub [t] = none → n ≤ 65534) :
    ∃ l, r.freeIds t free n = .ok l := by
  cases hs : r.sub [t] with
  | none => exact ⟨_, C35_first r t hs free n (hn hs)⟩
  | some d =>
    rcases listIds_eq r t with ⟨d', _, hl⟩ | ⟨h, _⟩
    · unfold ResDir.freeIds
      rw [hl]
      dsimp only
      generalize sortBy (fun a b => decide (a ≤ b)) (idList d'.es) = ids
      have : ∃ l, freeBelow free n ids = .ok l := by
        unfold freeBelow
        split
        · cases ids with
          | nil => exact ⟨_, rfl⟩
          | cons id ids =>
            rw [gaps]
            have : ∃ l, firstGap n id = .ok l ∧ l.length ≤ n := by
              unfold firstGap
              split
              · exact pushRange_noUB _ _ _ _ _ rfl (by simpa using h0)
              · exact ⟨[], rfl, by simp⟩
            obtain ⟨l, e, hle⟩ := this
            rw [e, ok_bind]
            split
            · exact ⟨l, rfl⟩
            · exact gapsFrom_noUB n _ _ _ (by omega)
        · exact ⟨_, rfl⟩
      obtain ⟨l, e⟩ := this
      rw [e, ok_bind]
      exact ⟨_, rfl⟩
    · rw [hs] at h; cases h

theorem icGroupStart_safe (k : IcKind) (f : Bytes) (n : Nat) (old : Option (Nat × Bytes)) (cp : Nat) (hf : 6 ≤ f.length) :
    NoUB (icGroupStart k f n old cp) ∧ ∀ x, icGroupStart k f n old cp = .ok x → x.2.2.length = 6 + (x.2.1 + n) * 14 := by
  cases old with
  | none =>
    unfold icGroupStart
    dsimp only
    rw [readN_ok (by omega), ok_bind]
    refine ⟨NoUB.ok _, fun x hx => ?_⟩
    cases hx
    dsimp only
    rw [List.length_append, zeros_length, slice_length_of_le (by omega)]
    omega
  | some y =>
    unfold icGroupStart
    dsimp only
    by_cases h6 : y.2.length < 6
    · rw [throwIf, if_pos h6]
      exact ⟨NoUB.throwE _, fun x hx => by cases hx⟩
    · rw [throwIf, if_neg h6, ok_bind, readU_ok (by omega), ok_bind]
      by_cases hc : y.2.length < 6 + rd 2 y.2 4 * 14
      · rw [throwIf, if_pos hc]
        exact ⟨NoUB.throwE _, fun x hx => by cases hx⟩
      · rw [throwIf, if_neg hc, ok_bind]
        refine ⟨NoUB.ok _, fun x hx => ?_⟩
        cases hx
        exact resize_length _ _

theorem addResource_noUB (r : ResDir) (d : Bytes) (t n : ResKey) (lang cp stamp : Nat) : NoUB (r.addResource d t n lang cp stamp).2 := by
  by_cases hb : r.Blocked t n
  · rw [(C33_add_throws r d t n lang cp stamp).1 hb]; exact NoUB.throwE _
  · rw [(C33_add_throws r d t n lang cp stamp).2 hb]; exact NoUB.ok _

theorem icAddAll_safe (k : IcKind) (f : Bytes) (nums : List Nat) (base lang cp stamp : Nat) : ∀ (n i : Nat) (r : ResDir) (g : Bytes),
    6 + 16 * (i + n) ≤ f.length → g.length = 6 + (base + (i + n)) * 14 →
    NoUB (icAddAll k f nums base lang cp stamp n i r g).2 ∧
      ∀ g', (icAddAll k f nums base lang cp stamp n i r g).2 = .ok g' → g'.length = g.length := by
  intro n
  induction n with
  | zero => intro i r g _ _; exact ⟨NoUB.ok _, fun g' h => by cases h; rfl⟩
  | succ n ih =>
    intro i r g hl hg
    have h1 : NoUB (icOne k f nums base i g) ∧ ∀ x, icOne k f nums base i g = .ok x → x.2.1.length = g.length := by
      unfold icOne
      rw [readN_ok (by omega), ok_bind]
      cases nums[i]? with
      | none => exact ⟨NoUB.throwE _, fun x hx => by cases hx⟩
      | some num =>
        dsimp only
        have hge : (k.groupEntry (slice f (6 + 16 * i) 16) num).length = 14 :=
          groupEntry_length (by rw [slice_length_of_le (by omega)]; omega)
        rw [writeAt_ok (by rw [hge, hg]; omega), ok_bind]
        unfold IcKind.stored
        split
        · exact ⟨NoUB.throwE _, fun x hx => by cases hx⟩
        · cases k
          · exact ⟨NoUB.ok _, fun x hx => by cases hx; exact patch_length (by rw [hge, hg]; omega)⟩
          · exact ⟨NoUB.ok _, fun x hx => by cases hx; exact patch_length (by rw [hge, hg]; omega)⟩
    rw [icAddAll]
    cases ho : icOne k f nums base i g with
    | error e =>
      dsimp only
      rw [ho] at h1
      exact ⟨fun u h => h1.1 u (by injection h with h; rw [h]), fun g' h => by cases h⟩
    | ok x =>
      obtain ⟨num, g1, x⟩ := x
      have hl1 := h1.2 _ ho
      dsimp only at hl1 ⊢
      have ha := addResource_noUB r x k.imgType (.id num) lang cp stamp
      cases hr : r.addResource x k.imgType (.id num) lang cp stamp with
      | mk r1 res =>
        rw [hr] at ha
        cases res with
        | error e => exact ⟨fun u h => ha u (by injection h with h; rw [h]), fun g' h => by cases h⟩
        | ok u =>
          dsimp only
          have := ih (i + 1) r1 g1 (by omega) (by rw [hl1, hg]; omega)
          exact ⟨this.1, fun g' h => (this.2 g' h).trans hl1⟩

/-- C60: adding a file writes and reads nothing outside of its buffers and ends, for all files and trees, unless there is no resource of the
    type and the file has 65535 images. -/
theorem C60_add (r : ResDir) (k : IcKind) (f : Bytes) (key : ResKey) (lang : Nat) (free : Bool) (cp stamp : Nat)
    (hn : r.sub [k.imgType] = none → rd 2 f 4 ≤ 65534) : NoUB (r.addIcons k f key lang free cp stamp).2 := by
  by_cases hf : IcoFile f
  · have h6 := hf.long
    have hh := hf.headers
    unfold ResDir.addIcons
    rw [(icFileCheck_iff k f (rd 2 f 4)).mpr ⟨hf, rfl⟩, ok_bind]
    obtain ⟨s1, s2⟩ := icGroupStart_safe k f (rd 2 f 4) (r.groupData k key lang) cp h6
    cases hs : icGroupStart k f (rd 2 f 4) (r.groupData k key lang) cp with
    | error e =>
      rw [hs] at s1
      exact fun u h => s1 u (by injection h with h; rw [h])
    | ok x =>
      obtain ⟨cp', base, g⟩ := x
      have hgl := s2 _ hs
      dsimp only at hgl
      obtain ⟨nums, hnums⟩ := freeIds_ok r k.imgType free (rd 2 f 4) (Nat.pos_of_ne_zero hf.some) hn
      rw [ok_bind, hnums, ok_bind]
      dsimp only
      obtain ⟨a1, a2⟩ := icAddAll_safe k f nums base lang cp' stamp (rd 2 f 4) 0 r g (by omega) (by rw [hgl]; congr 2; omega)
      cases ha : icAddAll k f nums base lang cp' stamp (rd 2 f 4) 0 r g with
      | mk r1 res =>
        rw [ha] at a1 a2
        cases res with
        | error e => exact fun u h => a1 u (by injection h with h; rw [h])
        | ok g1 =>
          have hl1 := a2 g1 rfl
          dsimp only
          have : ∃ g2, icNewCount (r.groupData k key lang) base (rd 2 f 4) g1 = .ok g2 := by
            unfold icNewCount
            split
            · exact ⟨_, writeAt_ok (by rw [leBytes_length, hl1, hgl]; omega)⟩
            · exact ⟨_, rfl⟩
          obtain ⟨g2, hg2⟩ := this
          rw [hg2]
          exact addResource_noUB _ _ _ _ _ _ _
  · rw [C36_refused r k f key lang free cp stamp hf]
    exact NoUB.throwE _

/-- The hypothesis of `C60_add` holds for a file that is refused by other functions. -/
example : NoUB (({ es := [] } : ResDir).addIcons .icon (patch demoIco 4 [3]) (.id 1) 0 true 0 0).2 :=
  C60_add _ _ _ _ _ _ _ _ (fun _ => by decide +kernel)

/-! ### C61: single images -/

theorem icSearch_ok (k : IcKind) (d raw : Bytes) (id : Nat) (H : Bytes) : ∀ n i, icSearch k d raw id n i = .ok (some H) →
    ∃ j, i ≤ j ∧ j < i + n ∧ rd 2 (grpEntry d j) 12 = id ∧ (k = .cursor → 4 ≤ raw.length) ∧
      H = slice d 0 4 ++ leBytes 2 1 ++ k.fileEntry (grpEntry d j) raw ++ leBytes 4 22 := by
  intro n
  induction n with
  | zero => intro i h; cases h
  | succ n ih =>
    intro i h
    rw [icSearch] at h
    obtain ⟨g, hg, h⟩ := bind_ok_iff.mp h
    have hg' : g = grpEntry d i := by
      unfold readN at hg
      split at hg
      · injection hg with hg; exact hg.symm
      · cases hg
    subst hg'
    split at h
    · rename_i hid
      obtain ⟨x, hx, h⟩ := bind_ok_iff.mp h
      obtain ⟨y, hy, h⟩ := bind_ok_iff.mp h
      have hy' : y = slice d 0 4 := by
        unfold readN at hy
        split at hy
        · injection hy with hy; exact hy.symm
        · cases hy
      subst hy'
      have hc : (k = .cursor → 4 ≤ raw.length) ∧ k.fileEntry (grpEntry d i) x = k.fileEntry (grpEntry d i) raw := by
        cases k with
        | icon => exact ⟨fun h => (by cases h), rfl⟩
        | cursor =>
          unfold IcKind.hotspot at hx
          dsimp only at hx
          rw [ok_bind] at hx
          unfold throwIf at hx
          split at hx
          · cases hx
          · rw [ok_bind] at hx
            injection hx with hx
            exact ⟨fun _ => by omega, by rw [hx]⟩
      injection h with h
      injection h with h
      exact ⟨i, Nat.le_refl _, by omega, hid, hc.1, by rw [← h, hc.2]⟩
    · obtain ⟨j, h1, h2, h3⟩ := ih (i + 1) h
      exact ⟨j, by omega, by omega, h3⟩

theorem icPresence_ok {k : IcKind} {d raw : Bytes} {id : Nat} {o : Option Bytes} (h : icPresence k d raw id = .ok o) :
    6 ≤ d.length ∧ (k = .icon → 6 + 14 * rd 2 d 4 ≤ d.length) ∧ icSearch k d raw id (rd 2 d 4) 0 = .ok o := by
  unfold icPresence at h
  by_cases h6 : d.length < 6
  · rw [throwIf, if_pos h6] at h; cases h
  · rw [throwIf, if_neg h6, ok_bind, readU_ok (by omega), ok_bind] at h
    by_cases hc : d.length < 6 + k.searched (rd 2 d 4)
    · rw [throwIf, if_pos hc] at h; cases h
    · rw [throwIf, if_neg hc, ok_bind] at h
      refine ⟨by omega, fun hk => ?_, h⟩
      subst hk
      unfold IcKind.searched at hc
      dsimp only at hc
      omega

theorem icLookup_ok (r : ResDir) (k : IcKind) (raw : Bytes) (id lang : Nat) (H : Bytes) : ∀ keys,
    r.icLookup k raw id lang keys = .ok (some H) →
    ∃ key ∈ keys, ∃ cp d, r.getData k.grpType key lang = .ok (cp, d) ∧ icPresence k d raw id = .ok (some H) := by
  intro keys
  induction keys with
  | nil => intro h; cases h
  | cons key keys ih =>
    intro h
    rw [ResDir.icLookup] at h
    obtain ⟨langs, _, h⟩ := bind_ok_iff.mp h
    split at h
    · obtain ⟨x, hx, h⟩ := bind_ok_iff.mp h
      obtain ⟨y, hy, h⟩ := bind_ok_iff.mp h
      cases y with
      | some H' =>
        injection h with h
        exact ⟨key, List.mem_cons_self, x.1, x.2, hx, by rw [hy, h]⟩
      | none =>
        obtain ⟨key', hm, h'⟩ := ih h
        exact ⟨key', List.mem_cons_of_mem _ hm, h'⟩
    · obtain ⟨key', hm, h'⟩ := ih h
      exact ⟨key', List.mem_cons_of_mem _ hm, h'⟩

theorem icGroupOf_ok (r : ResDir) (k : IcKind) (raw : Bytes) (id lang : Nat) (H : Bytes) (h : r.icGroupOf k raw id lang = .ok H) :
    ∃ key cp d, r.getData k.grpType key lang = .ok (cp, d) ∧ icPresence k d raw id = .ok (some H) := by
  unfold ResDir.icGroupOf at h
  obtain ⟨ids, _, h⟩ := bind_ok_iff.mp h
  obtain ⟨y, hy, h⟩ := bind_ok_iff.mp h
  cases y with
  | some H' =>
    injection h with h
    subst h
    obtain ⟨key, _, h'⟩ := icLookup_ok r k raw id lang H' _ hy
    exact ⟨key, h'⟩
  | none =>
    obtain ⟨names, _, h⟩ := bind_ok_iff.mp h
    obtain ⟨z, hz, h⟩ := bind_ok_iff.mp h
    cases z with
    | some H' =>
      injection h with h
      subst h
      obtain ⟨key, _, h'⟩ := icLookup_ok r k raw id lang H' _ hz
      exact ⟨key, h'⟩
    | none => cases h

theorem getSingle_ok (r : ResDir) (k : IcKind) (lang id : Nat) (F : Bytes) (h : r.getSingle k lang id = .ok F) :
    ∃ key cp d x j, r.getData k.grpType key lang = .ok (cp, d) ∧ r.imgData k lang id = .ok x ∧ 6 ≤ d.length ∧ j < rd 2 d 4 ∧
      rd 2 (grpEntry d j) 12 = id ∧ (k = .cursor → 4 ≤ x.length) ∧ F = icoFile (slice d 0 4) [(k.fileEntry (grpEntry d j) x, k.bodyOf x)] := by
  have fin : ∀ a b c : Bytes, a ++ leBytes 2 1 ++ b ++ leBytes 4 22 ++ c = icoFile a [(b, c)] := by
    intro a b c
    unfold icoFile
    rw [icoDir, icoDir, List.map_cons, List.map_nil, List.flatten_cons, List.flatten_nil]
    simp only [List.append_assoc, List.append_nil, List.length_cons, List.length_nil]
  cases k with
  | icon =>
    unfold ResDir.getSingle at h
    dsimp only at h
    obtain ⟨H, hH, h⟩ := bind_ok_iff.mp h
    obtain ⟨x, hx, h⟩ := bind_ok_iff.mp h
    obtain ⟨key, cp, d, hd, hp⟩ := icGroupOf_ok r .icon [] id lang H hH
    obtain ⟨p1, p2, p3⟩ := icPresence_ok hp
    obtain ⟨j, _, j2, j3, _, j5⟩ := icSearch_ok .icon d [] id H _ _ p3
    injection h with h
    refine ⟨key, cp, d, x, j, hd, hx, p1, by omega, j3, fun h => (by cases h), ?_⟩
    rw [← h, j5, fin]
    rfl
  | cursor =>
    unfold ResDir.getSingle at h
    dsimp only at h
    obtain ⟨x, hx, h⟩ := bind_ok_iff.mp h
    obtain ⟨H, hH, h⟩ := bind_ok_iff.mp h
    obtain ⟨b, hb, h⟩ := bind_ok_iff.mp h
    obtain ⟨key, cp, d, hd, hp⟩ := icGroupOf_ok r .cursor x id lang H hH
    obtain ⟨p1, p2, p3⟩ := icPresence_ok hp
    obtain ⟨j, _, j2, j3, j4, j5⟩ := icSearch_ok .cursor d x id H _ _ p3
    have hb' := image_of (k := .cursor) (x := x) j4
    rw [hb] at hb'
    injection hb' with hb'
    injection h with h
    refine ⟨key, cp, d, x, j, hd, hx, p1, by omega, j3, j4, ?_⟩
    rw [← h, j5, hb', fin]

/-- C61: a single image is one of the images of a group that names it: if this group can be read, the result is the file with just
    this image of the group. -/
theorem C61_single (r : ResDir) (k : IcKind) (lang id : Nat) (F : Bytes) (h : r.getSingle k lang id = .ok F) :
    ∃ key cp d j, r.getData k.grpType key lang = .ok (cp, d) ∧ j < rd 2 d 4 ∧ rd 2 d (6 + 14 * j + 12) = id ∧
      (∀ G, r.getIcons k key lang = .ok G →
        ∃ L p, G = icoFile (d.take 4) L ∧ L.length = rd 2 d 4 ∧ L[j]? = some p ∧ F = icoFile (d.take 4) [p]) := by
  obtain ⟨key, cp, d, x, j, hd, hx, h6, hj, hid, hc, hF⟩ := getSingle_ok r k lang id F h
  have hs : slice d 0 4 = d.take 4 := by unfold slice; rw [List.drop_zero]
  have hnum : rd 2 (grpEntry d j) 12 = rd 2 d (6 + 14 * j + 12) := by
    unfold grpEntry; rw [rd_slice (by omega), Nat.mul_comm]
  refine ⟨key, cp, d, j, hd, hj, by rw [← hnum, hid], fun G hG => ?_⟩
  unfold ResDir.getIcons at hG
  rw [hd, ok_bind] at hG
  obtain ⟨_, _, L, hL, hi, hG⟩ := (icRead_iff _ _ _ _).mp hG
  dsimp only at hL hi hG
  refine ⟨L, L[j], by rw [hG, hs], hL, List.getElem?_eq_getElem (by omega), ?_⟩
  obtain ⟨y, y1, _, y3⟩ := hi j L[j] (List.getElem?_eq_getElem (by omega))
  rw [hid, hx] at y1
  injection y1 with y1
  subst y1
  rw [hF, y3, hs]

/-- The groups in language `lang` are all as long as they say (and as long as it is checked, for cursors one entry). -/
def ResDir.GroupsOk (r : ResDir) (k : IcKind) (lang : Nat) : Prop :=
  ∀ a, r.sub [k.grpType] = some a → ∀ key, key ∈ a.es.map ResEntry.key → ∃ b, r.sub [k.grpType, key] = some b ∧
    (ResKey.id lang ∈ b.es.map ResEntry.key → ∃ cp d, r.getData k.grpType key lang = .ok (cp, d) ∧ 6 + 14 * rd 2 d 4 ≤ d.length ∧
      (k = .cursor → 20 ≤ d.length))

theorem icSearch_total (k : IcKind) (d raw : Bytes) (id : Nat) (hr : k = .cursor → 4 ≤ raw.length) : ∀ n i, 6 + 14 * (i + n) ≤ d.length →
    ∃ o, icSearch k d raw id n i = .ok o ∧ ((∃ j, i ≤ j ∧ j < i + n ∧ rd 2 (grpEntry d j) 12 = id) → o ≠ none) := by
  intro n
  induction n with
  | zero => intro i _; exact ⟨none, rfl, fun ⟨j, h1, h2, _⟩ => by omega⟩
  | succ n ih =>
    intro i hl
    rw [icSearch, readN_ok (by omega), ok_bind]
    by_cases hid : rd 2 (grpEntry d i) 12 = id
    · obtain ⟨y, hy, _⟩ := hotspot_of (k := k) (get := fun _ => .ok raw) (n := id) (x := raw) (g := grpEntry d i) rfl hr
      rw [show slice d (6 + i * 14) 14 = grpEntry d i from rfl, if_pos hid, hy, ok_bind, readN_ok (by omega), ok_bind]
      exact ⟨_, rfl, fun _ h => by cases h⟩
    · rw [show slice d (6 + i * 14) 14 = grpEntry d i from rfl, if_neg hid]
      obtain ⟨o, ho, h⟩ := ih (i + 1) (by omega)
      refine ⟨o, ho, fun ⟨j, h1, h2, h3⟩ => h ⟨j, ?_, by omega, h3⟩⟩
      by_cases hj : j = i
      · subst hj; exact absurd h3 hid
      · omega

theorem icPresence_total (k : IcKind) (d raw : Bytes) (id : Nat) (hr : k = .cursor → 4 ≤ raw.length) (hl : 6 + 14 * rd 2 d 4 ≤ d.length)
    (hs : 6 + k.searched (rd 2 d 4) ≤ d.length) :
    ∃ o, icPresence k d raw id = .ok o ∧ ((∃ j, j < rd 2 d 4 ∧ rd 2 (grpEntry d j) 12 = id) → o ≠ none) := by
  obtain ⟨o, ho, h⟩ := icSearch_total k d raw id hr (rd 2 d 4) 0 (by omega)
  refine ⟨o, ?_, fun ⟨j, h1, h2⟩ => h ⟨j, Nat.zero_le _, by omega, h2⟩⟩
  unfold icPresence
  rw [throwIf, if_neg (by omega), ok_bind, readU_ok (by omega), ok_bind, throwIf, if_neg (by omega), ok_bind, ho]

/-- The group `key` names the image `id`. -/
def ResDir.GroupNames (r : ResDir) (k : IcKind) (lang id : Nat) (key : ResKey) : Prop :=
  ∃ cp d j, r.getData k.grpType key lang = .ok (cp, d) ∧ j < rd 2 d 4 ∧ rd 2 d (6 + 14 * j + 12) = id

theorem key_mem_iff {es : List ResEntry} {k : ResKey} : k ∈ es.map ResEntry.key ↔ lk es k ≠ none := by
  rw [List.mem_map]
  constructor
  · rintro ⟨e, he, hk⟩ h
    exact lk_none.mp h e he hk
  · intro h
    cases he : lk es k with
    | none => exact absurd he h
    | some e => exact ⟨e, lk_mem he, lk_key he⟩

theorem icLookup_total (r : ResDir) (k : IcKind) (raw : Bytes) (id lang : Nat) (hr : k = .cursor → 4 ≤ raw.length) (hg : r.GroupsOk k lang)
    (a : ResDir) (ha : r.sub [k.grpType] = some a) : ∀ keys : List ResKey, (∀ key ∈ keys, key ∈ a.es.map ResEntry.key) →
    ∃ o, r.icLookup k raw id lang keys = .ok o ∧ ((∃ key ∈ keys, r.GroupNames k lang id key) → o ≠ none) := by
  intro keys
  induction keys with
  | nil => intro _; exact ⟨none, rfl, fun ⟨_, h, _⟩ => by cases h⟩
  | cons key keys ih =>
    intro hm
    obtain ⟨b, hb, hl⟩ := hg a ha key (hm key List.mem_cons_self)
    obtain ⟨o, ho, hn⟩ := ih (fun key' h => hm key' (List.mem_cons_of_mem _ h))
    have hlangs : r.listLanguages k.grpType key = .ok (idList b.es) := by
      unfold ResDir.listLanguages
      rw [nameDir_ok.mpr hb, ok_bind]
    rw [ResDir.icLookup, hlangs, ok_bind]
    by_cases hc : (idList b.es).contains lang = true
    · have hkm : ResKey.id lang ∈ b.es.map ResEntry.key := by
        obtain ⟨e, he⟩ := (mem_idList _ _).mp (List.contains_iff_mem.mp hc)
        rw [key_mem_iff, he]
        exact fun h => by cases h
      obtain ⟨cp, d, hd, h1, h2⟩ := hl hkm
      have hs : 6 + k.searched (rd 2 d 4) ≤ d.length := by
        cases k with
        | icon => show 6 + rd 2 d 4 * 14 ≤ _; omega
        | cursor => have := h2 rfl; show 6 + 14 ≤ _; omega
      obtain ⟨p, hp, hpn⟩ := icPresence_total k d raw id hr h1 hs
      rw [if_pos hc, hd, ok_bind, hp, ok_bind]
      cases p with
      | some H => exact ⟨_, rfl, fun _ h => by cases h⟩
      | none =>
        refine ⟨o, ho, fun ⟨key', hk', hnm⟩ => hn ⟨key', ?_, hnm⟩⟩
        rcases List.mem_cons.mp hk' with rfl | hk'
        · obtain ⟨cp', d', j, e1, e2, e3⟩ := hnm
          rw [hd] at e1
          cases e1
          refine absurd rfl (hpn ⟨j, e2, ?_⟩)
          unfold grpEntry
          rw [rd_slice (by omega), Nat.mul_comm j, e3]
        · exact hk'
    · rw [if_neg hc]
      refine ⟨o, ho, fun ⟨key', hk', hnm⟩ => hn ⟨key', ?_, hnm⟩⟩
      rcases List.mem_cons.mp hk' with rfl | hk'
      · obtain ⟨cp', d', j, e1, e2, e3⟩ := hnm
        have := getData_ok.mp e1
        unfold ResDir.entry3 at this
        rw [hb] at this
        refine absurd (List.contains_iff_mem.mpr ((mem_idList _ _).mpr ⟨_, this⟩)) hc
      · exact hk'

/-- C61: if an image is there and a group names it, and all groups of this language are as long as they say, it is found. -/
theorem C61_found (r : ResDir) (k : IcKind) (lang id : Nat) (x : Bytes) (key : ResKey) (hx : r.imgData k lang id = .ok x)
    (hr : k = .cursor → 4 ≤ x.length) (hn : r.GroupNames k lang id key) (hg : r.GroupsOk k lang) : ∃ F, r.getSingle k lang id = .ok F := by
  have hn' := hn
  obtain ⟨cp, d, j, hd, _, _⟩ := hn'
  have hent := getData_ok.mp hd
  rw [entry3_second] at hent
  cases ha : r.sub [k.grpType] with
  | none =>
    rw [sub_one] at ha
    unfold ResDir.second at hent
    rw [ha] at hent
    cases hent
  | some a =>
    have hkey : lk a.es key ≠ none := by
      intro h
      rw [sub_one] at ha
      unfold ResDir.second at hent
      rw [ha] at hent
      dsimp only [Option.bind] at hent
      rw [h] at hent
      cases hent
    have hids : r.listIds k.grpType = .ok (idList a.es) := by unfold ResDir.listIds; rw [typeDir_ok.mpr ha, ok_bind]
    have hnames : r.listNames k.grpType = .ok (nameList a.es) := by unfold ResDir.listNames; rw [typeDir_ok.mpr ha, ok_bind]
    have hmi : ∀ key' ∈ (idList a.es).map ResKey.id, key' ∈ a.es.map ResEntry.key := by
      intro key' h
      obtain ⟨n, hn', rfl⟩ := List.mem_map.mp h
      obtain ⟨e, he⟩ := (mem_idList _ _).mp hn'
      rw [key_mem_iff, he]
      exact fun h => by cases h
    have hmn : ∀ key' ∈ (nameList a.es).map ResKey.name, key' ∈ a.es.map ResEntry.key := by
      intro key' h
      obtain ⟨n, hn', rfl⟩ := List.mem_map.mp h
      obtain ⟨e, he⟩ := (mem_nameList _ _).mp hn'
      rw [key_mem_iff, he]
      exact fun h => by cases h
    have hgrp : ∀ raw : Bytes, (k = .cursor → 4 ≤ raw.length) → ∃ H, r.icGroupOf k raw id lang = .ok H := by
      intro raw hraw
      unfold ResDir.icGroupOf
      obtain ⟨o1, e1, f1⟩ := icLookup_total r k raw id lang hraw hg a ha _ hmi
      obtain ⟨o2, e2, f2⟩ := icLookup_total r k raw id lang hraw hg a ha _ hmn
      rw [hids, ok_bind, e1, ok_bind]
      cases o1 with
      | some H => exact ⟨_, rfl⟩
      | none =>
        dsimp only
        rw [hnames, ok_bind, e2, ok_bind]
        cases o2 with
        | some H => exact ⟨_, rfl⟩
        | none =>
          exfalso
          cases key with
          | id n =>
            refine f1 ⟨.id n, List.mem_map.mpr ⟨n, ?_, rfl⟩, hn⟩ rfl
            rw [mem_idList]
            cases he : lk a.es (.id n) with
            | none => exact absurd he hkey
            | some e => exact ⟨e, rfl⟩
          | name w =>
            refine f2 ⟨.name w, List.mem_map.mpr ⟨w, ?_, rfl⟩, hn⟩ rfl
            rw [mem_nameList]
            cases he : lk a.es (.name w) with
            | none => exact absurd he hkey
            | some e => exact ⟨e, rfl⟩
    cases k with
    | icon =>
      obtain ⟨H, hH⟩ := hgrp [] (fun h => by cases h)
      unfold ResDir.getSingle
      dsimp only
      rw [hH, ok_bind, hx, ok_bind]
      exact ⟨_, rfl⟩
    | cursor =>
      obtain ⟨H, hH⟩ := hgrp x hr
      unfold ResDir.getSingle
      dsimp only
      rw [hx, ok_bind, hH, ok_bind, image_of hr, ok_bind]
      exact ⟨_, rfl⟩

/-- The hypotheses of `C61_single` and `C61_found` hold for an icon that was added to the demo tree. -/
example : demoIconTree2.getSingle .icon 1033 9 = .ok (icoFile [0, 0, 1, 0] [([16, 16, 0, 0, 1, 0, 8, 0, 2, 0, 0, 0], [5, 6])]) ∧
    demoIconTree2.getSingle .icon 1033 10 = .ok (icoFile [0, 0, 1, 0] [([32, 32, 4, 0, 1, 0, 4, 0, 3, 0, 0, 0], [7, 8, 9])]) := by
  decide +kernel

/-- A cursor with its group, and an empty group. -/
def emptyGroupTree : ResDir :=
  { es := [.dir (.id 1) {} [.dir (.id 5) {} [.data (.id 0) 0 [1, 0, 1, 0, 9]]],
           .dir (.id 12) {} [.dir (.id 1) {} [.data (.id 0) 0 [0, 0, 2, 0, 0, 0]],
             .dir (.id 2) {} [.data (.id 0) 0 ([0, 0, 2, 0, 1, 0] ++ [1, 0, 2, 0, 0, 0, 0, 0, 5, 0, 0, 0] ++ [5, 0])]]] }

/-- C61 needs the last condition of `GroupsOk`: beside an empty group no single cursor can be read, although its group can. -/
theorem C61_empty_group : emptyGroupTree.getSingle .cursor 0 5 = throwE .resourceIncorrectCursor ∧
    emptyGroupTree.getIcons .cursor (.id 2) 0 = .ok ([0, 0, 2, 0, 1, 0] ++ [1, 1, 0, 0, 1, 0, 1, 0, 1, 0, 0, 0, 22, 0, 0, 0] ++ [9]) := by
  decide +kernel

end PE
